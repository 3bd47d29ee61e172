import Verif.Model.QtiRun

/-!
# What QTI expressions mean

Three-valued logic is specified by completion: an unknown truth value may be either; an operator
knows its result when all completions agree.
-/

namespace Verif.Spec

open Verif Verif.Qti

/-- Corresponding members of two lists are related. -/
inductive Pointwise {α β} (R : α → β → Prop) : List α → List β → Prop where
  | nil : Pointwise R [] []
  | cons {a b as bs} : R a b → Pointwise R as bs → Pointwise R (a :: as) (b :: bs)

/-- `t` may turn out to be `b`. -/
def MayBe (t : Option Bool) (b : Bool) : Prop := t = none ∨ t = some b

/-- `r` is what is known about `f` applied to truth values of which only `ts` is known: a result that all
completions of `ts` agree on, or nothing if they disagree. -/
def KnownResult (f : List Bool → Bool) (ts : List (Option Bool)) : Option Bool → Prop
  | some b => ∀ bs, Pointwise MayBe ts bs → f bs = b
  | none => (∃ bs, Pointwise MayBe ts bs ∧ f bs = true) ∧ (∃ bs, Pointwise MayBe ts bs ∧ f bs = false)

/-- A QTI value that is a truth value, or NULL (of boolean or unknown base type). -/
inductive IsTruth : Value → Option Bool → Prop where
  | bool (b : Bool) : IsTruth (.single (some .boolean) (some (.bool b))) (some b)
  | null : IsTruth (.single (some .boolean) none) none
  | untyped : IsTruth (.single none none) none
  | unknown : IsTruth .unknown none

/-- A QTI value that is a number: an integer or a float, never NULL. -/
inductive IsNumber : Value → Rat → Prop where
  | integer (i : Int) : IsNumber (.single (some .integer) (some (.int i))) i
  | float (q : Rat) : IsNumber (.single (some .float) (some (.num q))) q

/-- A NULL number: of integer, float or unknown base type. -/
inductive IsNullNumber : Value → Prop where
  | integer : IsNullNumber (.single (some .integer) none)
  | float : IsNullNumber (.single (some .float) none)
  | untyped : IsNullNumber (.single none none)
  | unknown : IsNullNumber .unknown

/-- Integers that fit in 32 bits. -/
def Fits (i : Int) : Prop := -2147483648 ≤ i ∧ i ≤ 2147483647

/-- `a` is a value of the base type.  Strings are never empty (an empty string is NULL); pairs are kept in
order; there are no file values. -/
inductive HasType : BaseType → Atom → Prop where
  | boolean (b : Bool) : HasType .boolean (.bool b)
  | directedPair (a b : Str) : Names.isValidNCName a = true → Names.isValidNCName b = true →
      HasType .directedPair (.pair a b)
  | duration (q : Rat) : HasType .duration (.num q)
  | float (q : Rat) : HasType .float (.num q)
  | identifier (s : Str) : Names.isValidNCName s = true → HasType .identifier (.str s)
  | integer (i : Int) : HasType .integer (.int i)
  | pair (a b : Str) : Names.isValidNCName a = true → Names.isValidNCName b = true → ¬ b < a →
      HasType .pair (.pair a b)
  | point (x y : Int) : Fits x → Fits y → HasType .point (.point x y)
  | string (s : Str) : s ≠ [] → HasType .string (.str s)
  | uri (s : Str) : HasType .uri (.str s)

/-- An integer atom fits in 32 bits. -/
def InRange : Atom → Prop
  | .int i => Fits i
  | _ => True

/-- The value agrees with its base type: members of containers are of the base type, a value without base
type is NULL. -/
inductive WellTyped : Value → Prop where
  | unknown : WellTyped .unknown
  | container (bt) : WellTyped (.container bt)
  | null (bt) : WellTyped (.single bt none)
  | single {bt a} : HasType bt a → WellTyped (.single (some bt) (some a))
  | ordered {bt as} : (∀ a ∈ as, ∃ b, bt = some b ∧ HasType b a ∧ InRange a) → WellTyped (.ordered bt as)
  | multiple {bt as} : (∀ a ∈ as, ∃ b, bt = some b ∧ HasType b a ∧ InRange a) → WellTyped (.multiple bt as)
  | record {fs} : (∀ f ∈ fs, HasType f.2.1 f.2.2) → WellTyped (.record fs)

/-- All the variables of the session are well typed. -/
def GoodState (st : State) : Prop := ∀ p ∈ st.vars, WellTyped p.2

/-- The members of a value: a single value has one member, NULL has none. -/
def members : Value → List Atom
  | .single _ (some a) => [a]
  | .ordered _ as => as
  | .multiple _ as => as
  | _ => []

/-- How often `a` occurs. -/
def occurrences (a : Atom) (l : List Atom) : Nat := (l.filter (fun b => b = a)).length

/-- `l` occurs inside `m` as consecutive members. -/
def Consecutive {α} (l m : List α) : Prop := ∃ before after, m = before ++ l ++ after

end Verif.Spec
