import Verif.Model.PyMigrate
import Verif.Spec.V1
import Verif.Spec.RespProc

/-!
# What the library's migration of version 1 items should keep
-/

namespace Verif.Spec.PyMig

open Verif Verif.Qti Verif.V1 Verif.Spec

mutual
/-- A condition with the white space around the texts of its tests removed. -/
def trimmed : Cond → Cond
  | .and cs => .and (trimmedAll cs)
  | .or cs => .or (trimmedAll cs)
  | .not cs => .not (trimmedAll cs)
  | .other => .other
  | .unanswered r => .unanswered r
  | .test t r i text => .test t r i (Names.strip text)
/-- Several of them. -/
def trimmedAll : List Cond → List Cond
  | [] => []
  | c :: cs => trimmed c :: trimmedAll cs
end

/-- An effect with the white space around its operand removed. -/
def trimmedEffect : Effect → Effect
  | .setvar n a text => .setvar n a (Names.strip text)
  | .displayfeedback l => .displayfeedback l

/-- A response condition with the white space around texts removed. -/
def trimmedRule (c : RespCondition) : RespCondition :=
  ⟨trimmedAll c.conds, c.effects.map trimmedEffect, c.continueFlag⟩

/-- Tests that are converted: of single responses; for equality also of all the values of a container, which are
compared with regard to case. -/
def Convertible (t : Test) (a : Answer) (i : Option Int) : Prop :=
  match t with
  | .varequal caseFlag =>
    a.card = .single ∨
    (a.card = .multiple ∨ a.card = .ordered ∧ (i = none ∨ i = some 0)) ∧ (a.bt = .string → caseFlag = true)
  | .varlt => a.card = .single ∧ (a.bt = .integer ∨ a.bt = .float)
  | .varlte => a.card = .single ∧ (a.bt = .integer ∨ a.bt = .float)
  | .vargt => a.card = .single ∧ (a.bt = .integer ∨ a.bt = .float)
  | .vargte => a.card = .single ∧ (a.bt = .integer ∨ a.bt = .float)
  | .varsubset => False
  | .varsubstring _ => False
  | .varinside _ => False

mutual
/-- Conditions that are converted: the responses exist, the operands are legal, the tests are convertible, nothing is
empty, and `not` has one operand. -/
def Kept (R : Answers) : Cond → Prop
  | .and cs => cs ≠ [] ∧ KeptAll R cs
  | .or cs => cs ≠ [] ∧ KeptAll R cs
  | .not cs => cs.length = 1 ∧ KeptAll R cs
  | .other => True
  | .unanswered _ => False
  | .test t r i text => ∃ a y, R r = some a ∧ Denotes a.bt text y ∧ Convertible t a i
/-- Several of them. -/
def KeptAll (R : Answers) : List Cond → Prop
  | [] => True
  | c :: cs => Kept R c ∧ KeptAll R cs
end

/-- What the declarations say about responses: identifier, cardinality and base type. -/
def responses (ds : PyMig.Decls) : Env := fun r =>
  (Dict.get ds (PyMig.ident r)).map fun d => (PyMig.ident r, d.card, d.bt)

/-- What the declarations say about outcomes: identifier and base type. -/
def outcomes (ds : PyMig.Decls) : Outs := fun n =>
  (PyMig.ident n, match Dict.get ds (PyMig.ident n) with
    | some d => d.bt
    | none => .integer)

/-- The roles that have the same name in both versions, and the role of version 2 that takes the place of the others. -/
def roleNames : List (Str × PyMig.View2) :=
  [("author".toList, .author), ("candidate".toList, .candidate), ("proctor".toList, .proctor),
   ("scorer".toList, .scorer), ("tutor".toList, .tutor),
   ("invigilator".toList, .proctor), ("invigilatorproctor".toList, .proctor), ("administrator".toList, .proctor),
   ("adminauthority".toList, .proctor), ("assessor".toList, .scorer), ("psychometrician".toList, .testConstructor)]

/-- The elements `setvar` come first, as the schema says. -/
def SetsFirst (fs : List Effect) : Prop :=
  ∃ sets shows : List Effect, fs = sets ++ shows ∧ (∀ f ∈ sets, ∃ n a t, f = .setvar n a t) ∧
    ∀ f ∈ shows, ∃ l, f = .displayfeedback l

/-- The name of the blank number `i` of a response: two digits at least. -/
def blankName (base : Str) (i : Nat) : Str :=
  base ++ '_' :: ((if i < 10 then ['0'] else []) ++ Py.strNat i)

end Verif.Spec.PyMig
