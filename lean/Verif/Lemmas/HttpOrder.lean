import Verif.Model.HttpValues
import Verif.Lemmas.Paging

/-! # The comparisons of header values are orders -/

set_option linter.unusedVariables false

namespace Verif.Http

theorem lowerChar_idem (c : Char) : Py.lowerChar (Py.lowerChar c) = Py.lowerChar c := by
  unfold Py.lowerChar
  by_cases hc : 65 ≤ c.toNat ∧ c.toNat ≤ 90
  · rw [if_pos hc]
    have : (Char.ofNat (c.toNat + 32)).toNat = c.toNat + 32 := by
      have hv : (c.toNat + 32).isValidChar := by unfold Nat.isValidChar; omega
      unfold Char.ofNat
      rw [dif_pos hv]
      simp only [Char.toNat, Char.ofNatAux]
      show (UInt32.ofNatLT _ _).toNat = _
      rw [UInt32.toNat_ofNatLT]
    rw [if_neg (by rw [this]; omega)]
  · rw [if_neg hc, if_neg hc]

theorem lower_idem (s : Str) : Py.lower (Py.lower s) = Py.lower s := by
  unfold Py.lower
  rw [List.map_map]
  exact List.map_congr_left fun c _ => lowerChar_idem c

/-- Comparison by a key. -/
theorem trans_comap {α β : Type} {cmp : β → β → Ordering} [Std.TransCmp cmp] (f : α → β) :
    Std.TransCmp fun a b => cmp (f a) (f b) :=
  { eq_swap := fun {a b} => Std.OrientedCmp.eq_swap (cmp := cmp)
    isLE_trans := fun {a b c} h1 h2 => Std.TransCmp.isLE_trans (cmp := cmp) h1 h2 }

/-- Comparison the other way round. -/
theorem trans_flip {α : Type} {cmp : α → α → Ordering} [Std.TransCmp cmp] : Std.TransCmp fun a b => cmp b a :=
  { eq_swap := fun {a b} => Std.OrientedCmp.eq_swap (cmp := cmp)
    isLE_trans := fun {a b c} h1 h2 => Std.TransCmp.isLE_trans (cmp := cmp) h2 h1 }

/-- One comparison after another. -/
theorem trans_then {α : Type} {c1 c2 : α → α → Ordering} [Std.TransCmp c1] [Std.TransCmp c2] :
    Std.TransCmp fun a b => (c1 a b).then (c2 a b) :=
  inferInstanceAs (Std.TransCmp (compareLex c1 c2))

/-- Whether a type is the wildcard, as a number. -/
def starNum (a : Str) : Nat := if a = ['*'] then 1 else 0

theorem compareTypes_eq (a b : Str) :
    compareTypes a b = (compare (starNum a) (starNum b)).then (compare (Py.lower a) (Py.lower b)) := by
  unfold compareTypes starNum
  by_cases ha : a = ['*'] <;> by_cases hb : b = ['*']
  · subst ha; subst hb; decide
  · rw [if_pos ha, if_neg hb, if_pos ha, if_neg hb]; rfl
  · rw [if_neg ha, if_pos hb, if_neg ha, if_pos hb]; rfl
  · rw [if_neg ha, if_neg hb, if_neg ha, if_neg hb]; rfl

instance : Std.TransCmp compareTypes := by
  have h1 : Std.TransCmp fun a b : Str => compare (starNum a) (starNum b) := trans_comap (cmp := compare) starNum
  have h2 : Std.TransCmp fun a b : Str => compare (Py.lower a) (Py.lower b) := trans_comap (cmp := compare) Py.lower
  have := trans_then (c1 := fun a b : Str => compare (starNum a) (starNum b)) (c2 := fun a b : Str => compare (Py.lower a) (Py.lower b))
  have e : compareTypes = fun a b => (compare (starNum a) (starNum b)).then (compare (Py.lower a) (Py.lower b)) := by
    funext a b; exact compareTypes_eq a b
  rw [e]
  exact this

instance : Std.TransCmp cmpParam := by unfold cmpParam; infer_instance

instance : Std.TransCmp cmpRange := by
  have h1 : Std.TransCmp fun a b : MediaType => compareTypes a.type b.type := trans_comap _
  have h2 : Std.TransCmp fun a b : MediaType => compareTypes a.subtype b.subtype := trans_comap _
  have h3 : Std.TransCmp fun a b : Nat => compare b a := trans_flip
  have h3 : Std.TransCmp fun a b : MediaType => compare b.params.length a.params.length :=
    trans_comap (cmp := fun a b : Nat => compare b a) fun a : MediaType => a.params.length
  have h4 : Std.TransCmp fun a b : MediaType => List.compareLex cmpParam a.params b.params :=
    trans_comap (cmp := List.compareLex cmpParam) _
  exact @trans_then _ _ _ h1 (@trans_then _ _ _ h2 (@trans_then _ _ _ h3 h4))

instance : Std.TransCmp cmpItem := by
  have h1 : Std.TransCmp fun a b : AcceptItem => cmpRange a.range b.range := trans_comap _
  have h3 : Std.TransCmp fun a b : Nat => compare b a := trans_flip
  have h3 : Std.TransCmp fun a b : AcceptItem => compare b.q a.q :=
    trans_comap (cmp := fun a b : Nat => compare b a) fun a : AcceptItem => a.q
  exact @trans_then _ _ _ h1 h3

/-- A comparison by `cmp` can be sorted by. -/
theorem comparison_of_trans {α : Type} {cmp : α → α → Ordering} [Std.TransCmp cmp] :
    Verif.Spec.Paging.Comparison fun a b => (cmp a b).isLE := by
  constructor
  · intro a b
    have := Std.OrientedCmp.eq_swap (cmp := cmp) (a := a) (b := b)
    cases h : cmp b a <;> rw [h] at this <;> simp [this, Ordering.swap]
  · intro a b c h1 h2
    exact Std.TransCmp.isLE_trans (cmp := cmp) h1 h2

/-- What is not greater either way round is equal. -/
theorem eq_of_both {α : Type} {cmp : α → α → Ordering} [Std.TransCmp cmp] {a b : α} (h1 : (cmp a b).isLE = true)
    (h2 : (cmp b a).isLE = true) : cmp a b = .eq := by
  have sw := Std.OrientedCmp.eq_swap (cmp := cmp) (a := a) (b := b)
  generalize cmp a b = x at h1 sw ⊢
  generalize cmp b a = y at h2 sw
  cases x <;> cases y <;> first | rfl | exact absurd h1 (by decide) | exact absurd h2 (by decide) | exact absurd sw (by decide)

end Verif.Http
