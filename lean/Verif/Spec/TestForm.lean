import Verif.Model.TestForm

/-!
# What a test form is

Selection and ordering as QTI describes them.  The children of a section that a form shows are chosen by the
selection rule, in the order of the test; if the section is shuffled, those that are not fixed change places among
themselves.  A section is shown as its identifier, its contents and a closing identifier; a section that is neither
visible nor kept together gives its contents to the shuffling of its parent.
-/

set_option linter.unusedVariables false

namespace Verif.Spec.TestForm

open Verif Verif.TestForm

/-- How many children the rule selects. -/
def target (selection : Option (Int × Bool)) (kids : List Part) : Int :=
  match selection with
  | some (n, _) => n
  | none => kids.length

/-- The places `sel` are a choice that the rule allows: so many, in order, with all required children, and none twice
unless there is replacement. -/
structure Rule (selection : Option (Int × Bool)) (kids : List Part) (sel : List Nat) : Prop where
  number : (sel.length : Int) = target selection kids
  sorted : sel.Pairwise (· ≤ ·)
  children : ∀ i ∈ sel, i < kids.length
  required : ∀ i kid, kids[i]? = some kid → kid.required = true → i ∈ sel
  once : (∀ n, selection ≠ some (n, true)) → sel.Nodup

/-- How many children are required. -/
def requiredCount (kids : List Part) : Nat := (kids.filter (·.required)).length

/-- There is a choice that the rule allows. -/
def Satisfiable (selection : Option (Int × Bool)) (kids : List Part) : Prop :=
  match selection with
  | none => True
  | some (n, false) => (requiredCount kids : Int) ≤ n ∧ n ≤ kids.length
  | some (n, true) => (requiredCount kids : Int) ≤ n ∧ (kids = [] → n = 0)

mutual
/-- A child shown whole: an item, or a section with its contents between identifier and closing identifier. -/
inductive Whole : Part → List Str → Prop where
  | item (id : Str) (rq fx : Bool) : Whole (.item id rq fx) [id]
  | sect {id rq fx v k s sh kids} {pieces : List (List Str)} : Arranged (.sect id rq fx v k s sh kids) pieces →
      Whole (.sect id rq fx v k s sh kids) (id :: pieces.flatten ++ [closing id])
/-- The contents of a section, in pieces. -/
inductive Arranged : Part → List (List Str) → Prop where
  | mk {id rq fx v k s sh kids} (sel : List Nat) (blocks : List (List (List Str))) (floating pool : List (List Str)) :
      Rule s kids sel → Laid sh (sel.filterMap fun i => kids[i]?) blocks floating pool → floating.Perm pool →
      Arranged (.sect id rq fx v k s sh kids) blocks.flatten
/-- The chosen children in order.  `blocks` are what is shown in the place of each: a child that is fixed, or not
shuffled, shows itself; in the place of any other there is at least one of those that float.  `floating` are the
pieces shown in these places, `pool` the pieces these children brought. -/
inductive Laid : Bool → List Part → List (List (List Str)) → List (List Str) → List (List Str) → Prop where
  | nil {sh} : Laid sh [] [] [] []
  | still {sh kid kids w blocks fs pool} : (sh && !kid.fixed) = false → Whole kid w → Laid sh kids blocks fs pool →
      Laid sh (kid :: kids) ([w] :: blocks) fs pool
  | floats {kid kids w b blocks fs pool} : kid.fixed = false → kid.mixed = false → b ≠ [] → Whole kid w →
      Laid true kids blocks fs pool → Laid true (kid :: kids) (b :: blocks) (b ++ fs) (w :: pool)
  | mixed {kid kids q b blocks fs pool} : kid.fixed = false → kid.mixed = true → b ≠ [] → Arranged kid q →
      Laid true kids blocks fs pool → Laid true (kid :: kids) (b :: blocks) (b ++ fs) (q ++ pool)
end

/-- The sections of a test part, one after the other. -/
inductive Sections : List Part → List Str → Prop where
  | nil : Sections [] []
  | cons {s ss w ids} : Whole s w → Sections ss ids → Sections (s :: ss) (w ++ ids)

/-- The parts of a test. -/
inductive Parts : List TPart → List Str → Prop where
  | nil : Parts [] []
  | cons {p ps ids rest} : Sections p.sections ids → Parts ps rest →
      Parts (p :: ps) ((p.id :: ids ++ [closing p.id]) ++ rest)

/-- The identifiers of a test are different from each other. -/
def Distinct (test : List TPart) : Prop := ((allOf (test.flatMap (·.sections))).map (·.id)).Nodup

/-- The parts of test parts are sections. -/
def SectionsOnly (test : List TPart) : Prop := ∀ p ∈ test, ∀ s ∈ p.sections, s.isSect = true

mutual
/-- No section below that gives its contents to a shuffled parent selects nothing. -/
def NoEmptyMix : Part → Prop
  | .item _ _ _ => True
  | .sect _ _ _ v k s sh kids => ((!v && !k) = true → target s kids ≠ 0) ∧ NoEmptyMixes kids
/-- The same for a list. -/
def NoEmptyMixes : List Part → Prop
  | [] => True
  | p :: ps => NoEmptyMix p ∧ NoEmptyMixes ps
end

mutual
/-- Every section below has a rule that can be satisfied, and shuffles items only. -/
def Plain : Part → Prop
  | .item _ _ _ => True
  | .sect _ _ _ _ _ s sh kids =>
    Satisfiable s kids ∧ (sh = true → ∀ k ∈ kids, k.fixed = true ∨ k.isSect = false) ∧ PlainAll kids
/-- The same for a list. -/
def PlainAll : List Part → Prop
  | [] => True
  | p :: ps => Plain p ∧ PlainAll ps
end

end Verif.Spec.TestForm
