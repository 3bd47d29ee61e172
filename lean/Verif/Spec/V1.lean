import Verif.Model.V1Resp
import Verif.Spec.Names
import Verif.Spec.Qti
import Verif.Spec.XsdText

/-!
# Meaning of QTI version 1 response processing
-/

namespace Verif.Spec

open Verif Verif.Qti Verif.V1

/-- The number an action of `setvar` leaves in an outcome that held `old`. -/
def actionResult : Action → (old operand : Rat) → Rat
  | .set, _, x => x
  | .add, old, x => old + x
  | .subtract, old, x => old - x
  | .multiply, old, x => old * x
  | .divide, old, x => old / x
  | .unknown, old, _ => old

/-! ## Conditions -/

/-- What the candidate answered to one response: its cardinality and base type, and the values given, none if it
was not answered. -/
structure Answer where
  card : Card
  bt : BaseType
  values : List Atom

/-- The candidate's answers, by the identifiers of version 1. -/
abbrev Answers := Str → Option Answer

/-- A name without dots and spaces, in the basic multilingual plane: a name that migration keeps. -/
def PlainName (s : Str) : Prop :=
  IsNCName s ∧ ∀ c ∈ s, c ≠ '.' ∧ Names.isSpace c = false ∧ c.toNat < 0x10000

/-- The value that a text in a test stands for. -/
inductive Denotes : BaseType → Str → Atom → Prop where
  | identifier {s} : PlainName s → Denotes .identifier s (.str s)
  | string {s} : s ≠ [] → Denotes .string s (.str s)
  | integer {s i} : IntegerText s i → Denotes .integer s (.int i)
  | float {s q} : DoubleText s q → Denotes .float s (.num q)
  /-- pairs have no direction -/
  | pair {a b} : PlainName a → PlainName b → ¬ b < a → Denotes .pair (a ++ ',' :: b) (.pair a b)
  | pairSwapped {a b} : PlainName a → PlainName b → b < a → Denotes .pair (a ++ ',' :: b) (.pair b a)

/-- The values a test looks at: all of them, or the one at the position given by the index of an ordered
response. -/
def selected (a : Answer) : Option Int → List Atom
  | none => a.values
  | some n => if a.card = .ordered ∧ n ≠ 0 then (a.values[n.toNat - 1]?).toList else a.values

/-- The number in a value. -/
def numberOf : Atom → Option Rat
  | .int i => some i
  | .num q => some q
  | _ => none

/-- The text in a value. -/
def textOf : Atom → Option Str
  | .str s => some s
  | _ => none

/-- Two numbers in a relation. -/
def Numbers (R : Rat → Rat → Prop) (x y : Atom) : Prop :=
  ∃ p q, numberOf x = some p ∧ numberOf y = some q ∧ R p q

/-- Does a value `x` of the candidate pass the test with operand `y`?  Case counts for text only. -/
def Passes (t : Test) (bt : BaseType) (x y : Atom) : Prop :=
  match t with
  | .varequal true => x = y
  | .varequal false => if bt = .string then (textOf x).map Py.lower = (textOf y).map Py.lower else x = y
  | .varlt => Numbers (fun p q => p < q) x y
  | .varlte => Numbers (fun p q => p ≤ q) x y
  | .vargt => Numbers (fun p q => p > q) x y
  | .vargte => Numbers (fun p q => p ≥ q) x y
  | .varsubset => x = y
  | .varsubstring true => ∃ s u, textOf x = some s ∧ textOf y = some u ∧ Consecutive u s
  | .varsubstring false => ∃ s u, textOf x = some s ∧ textOf y = some u ∧ Consecutive (Py.lower u) (Py.lower s)
  | .varinside _ => False

mutual
/-- When a condition is satisfied.  A test is satisfied by the answers of which a value passes; `other` is what
catches all the answers that the conditions before it did not. -/
def Sat (R : Answers) : Cond → Prop
  | .and cs => SatAll R cs
  | .or cs => SatAny R cs
  | .not cs => ¬ SatAll R cs
  | .other => True
  | .unanswered r => ∃ a, R r = some a ∧ a.values = []
  | .test t r i text => ∃ a x y, R r = some a ∧ Denotes a.bt text y ∧ x ∈ selected a i ∧ Passes t a.bt x y
/-- All of several conditions are satisfied. -/
def SatAll (R : Answers) : List Cond → Prop
  | [] => True
  | c :: cs => Sat R c ∧ SatAll R cs
/-- One of several conditions is satisfied. -/
def SatAny (R : Answers) : List Cond → Prop
  | [] => False
  | c :: cs => Sat R c ∨ SatAny R cs
end

/-- The test looks at one value at most. -/
def PicksOne (a : Answer) (i : Option Int) : Prop :=
  a.card = .single ∨ a.card = .ordered ∧ ∃ n, i = some n ∧ 1 ≤ n

/-- The test looks at all the values of a container. -/
def PicksAll (a : Answer) (i : Option Int) : Prop :=
  (a.card = .ordered ∨ a.card = .multiple) ∧ (i = none ∨ i = some 0)

/-- The tests whose meaning is kept by migration. -/
def Translatable (t : Test) (a : Answer) (i : Option Int) : Prop :=
  match t with
  | .varequal caseFlag => PicksOne a i ∨ PicksAll a i ∧ a.bt ≠ .integer ∧ (a.bt = .string → caseFlag = true)
  | .varlt => PicksOne a i ∧ (a.bt = .integer ∨ a.bt = .float)
  | .varlte => PicksOne a i ∧ (a.bt = .integer ∨ a.bt = .float)
  | .vargt => PicksOne a i ∧ (a.bt = .integer ∨ a.bt = .float)
  | .vargte => PicksOne a i ∧ (a.bt = .integer ∨ a.bt = .float)
  | .varsubset => (i = none ∨ i = some 0)
  | .varsubstring _ => False
  | .varinside _ => False

mutual
/-- The conditions whose meaning is kept by migration: the responses exist, the operands are legal, the tests are
translatable, and no `not` is empty. -/
def Supported (R : Answers) : Cond → Prop
  | .and cs => SupportedAll R cs
  | .or cs => SupportedAll R cs
  | .not cs => cs ≠ [] ∧ SupportedAll R cs
  | .other => True
  | .unanswered r => ∃ a, R r = some a
  | .test t r i text => ∃ a y, R r = some a ∧ Denotes a.bt text y ∧ Translatable t a i
/-- Several of them. -/
def SupportedAll (R : Answers) : List Cond → Prop
  | [] => True
  | c :: cs => Supported R c ∧ SupportedAll R cs
end

mutual
/-- Everything the condition tests was answered. -/
def Answered (R : Answers) : Cond → Prop
  | .and cs => AnsweredAll R cs
  | .or cs => AnsweredAll R cs
  | .not cs => AnsweredAll R cs
  | .other => True
  | .unanswered _ => True
  | .test _ r i _ => ∃ a, R r = some a ∧ selected a i ≠ []
/-- Several of them. -/
def AnsweredAll (R : Answers) : List Cond → Prop
  | [] => True
  | c :: cs => Answered R c ∧ AnsweredAll R cs
end

mutual
/-- Everything the condition tests inside a `not` was answered. -/
def NegatesAnswered (R : Answers) : Cond → Prop
  | .and cs => NegatesAnsweredAll R cs
  | .or cs => NegatesAnsweredAll R cs
  | .not cs => AnsweredAll R cs
  | .other => True
  | .unanswered _ => True
  | .test _ _ _ _ => True
/-- Several of them. -/
def NegatesAnsweredAll (R : Answers) : List Cond → Prop
  | [] => True
  | c :: cs => NegatesAnswered R c ∧ NegatesAnsweredAll R cs
end

/-- A QTI value is the answer. -/
inductive IsAnswer : Value → Answer → Prop where
  | none (bt) : IsAnswer (.single (some bt) none) ⟨.single, bt, []⟩
  | single (bt a) : IsAnswer (.single (some bt) (some a)) ⟨.single, bt, [a]⟩
  | ordered (bt as) : IsAnswer (.ordered (some bt) as) ⟨.ordered, bt, as⟩
  | multiple (bt as) : IsAnswer (.multiple (some bt) as) ⟨.multiple, bt, as⟩

/-- The session holds the answers, under the identifiers of the migrated item. -/
def HoldsAnswers (env : Env) (st : State) (R : Answers) : Prop :=
  GoodState st ∧ ∀ r a, R r = some a →
    ∃ id v, env r = some (id, a.card, a.bt) ∧ st.get id = .ok v ∧ IsAnswer v a

/-! ## Scoring -/

/-- The results of a version 1 item: the numbers in its outcomes and the feedback shown. -/
structure Results where
  value : Str → Rat
  shown : Str → Prop

/-- The operand of a `setvar`, for an outcome of the base type. -/
inductive OperandText : BaseType → Str → Rat → Prop where
  | integer {s i} : IntegerText s i → OperandText .integer s i
  | float {s q} : DoubleText s q → OperandText .float s q

/-- Actions with a number as result: no division by zero, no division of integers, and integers that fit in 32
bits. -/
def HasResult (bt : BaseType) (a : Action) (x r : Rat) : Prop :=
  a ≠ .unknown ∧ (a = .divide → x ≠ 0 ∧ bt = .float) ∧ (bt = .integer → ∃ i : Int, r = i ∧ Fits i)

/-- What the effects of a condition do. -/
inductive Performs (bt : Str → BaseType) : List Effect → Results → Results → Prop where
  | nil (s) : Performs bt [] s s
  | setvar {n a text x s s' fs} : OperandText (bt n) text x → HasResult (bt n) a x (actionResult a (s.value n) x) →
      Performs bt fs ⟨fun m => if m = n then actionResult a (s.value n) x else s.value m, s.shown⟩ s' →
      Performs bt (.setvar n a text :: fs) s s'
  | feedback {name s s' fs} : PlainName name → Performs bt fs ⟨s.value, fun m => m = name ∨ s.shown m⟩ s' →
      Performs bt (.displayfeedback name :: fs) s s'

/-- Version 1 scoring: conditions are tried in order; the effects of those satisfied are performed; after one
without `continue` no others are tried. -/
inductive Scored (R : Answers) (bt : Str → BaseType) : List RespCondition → Results → Results → Prop where
  | nil (s) : Scored R bt [] s s
  | skip {c cs s s'} : ¬ SatAll R c.conds → Scored R bt cs s s' → Scored R bt (c :: cs) s s'
  | stop {c cs s s'} : SatAll R c.conds → c.continueFlag = false → Performs bt c.effects s s' →
      Scored R bt (c :: cs) s s'
  | go {c cs s s' s''} : SatAll R c.conds → c.continueFlag = true → Performs bt c.effects s s' →
      Scored R bt cs s' s'' → Scored R bt (c :: cs) s s''

/-- The session holds the results: each outcome in `names` is a number of its base type, under its identifier in
the migrated item, and, if the item shows feedback, outcome `FEEDBACK` is the set of what is shown. -/
structure HoldsResults (outs : Outs) (names : List Str) (feedback : Prop) (st : State) (s : Results) : Prop where
  value : ∀ n ∈ names, st.isOutcome (outs n).1 = .ok true ∧
    ∃ v, st.get (outs n).1 = .ok v ∧ IsNumber v (s.value n) ∧ v.bt = some (outs n).2
  shown : feedback → st.isOutcome "FEEDBACK".toList = .ok true ∧
    ∃ as, st.get "FEEDBACK".toList = .ok (.multiple (some .identifier) as) ∧ ∀ m, s.shown m ↔ Atom.str m ∈ as

/-- The item shows feedback. -/
def ShowsFeedback (rcs : List RespCondition) : Prop := ∃ c ∈ rcs, ∃ l, Effect.displayfeedback l ∈ c.effects

end Verif.Spec
