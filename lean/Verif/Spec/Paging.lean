import Verif.Model.Py

/-!
# Pages

What a page is: a run of the entities of the collection in the order of the collection.  Page `j` (counting from 0) of
size `s` of a collection read from place `a` on is the run of `s` entities from place `a + j*s` on, cut at the end of
the collection.
-/

namespace Verif.Spec.Paging

open Verif

variable {E : Type}

/-- The size of a page, if it is limited: the smaller of the two limits. -/
def pageSize (top topmax : Option Nat) : Option Nat :=
  match top, topmax with
  | none, none => none
  | some t, none => some t
  | none, some m => some m
  | some t, some m => some (min t m)

/-- Page `j` of size `s` from place `a` on. -/
def page (values : List E) (a s j : Nat) : List E := (values.drop (a + j * s)).take s

/-- `a` comes before `b`: by the first rule, in case of a tie by the second, and so on; in the end by key.  A rule with
`true` is turned around. -/
def Before (keyLe : E → E → Bool) : List ((E → E → Bool) × Bool) → E → E → Prop
  | [], a, b => keyLe a b = true
  | (le, false) :: rules, a, b => le a b = true ∧ (le b a = true → Before keyLe rules a b)
  | (le, true) :: rules, a, b => le b a = true ∧ (le a b = true → Before keyLe rules a b)

/-- A comparison that can be sorted by. -/
structure Comparison (le : E → E → Bool) : Prop where
  total : ∀ a b, le a b = true ∨ le b a = true
  trans : ∀ a b c, le a b = true → le b c = true → le a c = true

end Verif.Spec.Paging
