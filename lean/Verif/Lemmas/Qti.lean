import Verif.Spec.Qti

/-! # Lemmas about the checks on QTI values -/

namespace Verif.Qti

open Verif

theorem checkCardinalitiesFrom_ok (c : Card) : ∀ (l : List (Option Card)) (b : Option Card),
    (∀ x ∈ l, x = none ∨ x = some c) → (b = none ∨ b = some c) →
    checkCardinalitiesFrom b l = .ok (if l.all (·.isNone) then b else some c)
  | [], b, _, _ => by simp [checkCardinalitiesFrom]
  | x :: l, b, hl, hb => by
    have hl' : ∀ y ∈ l, y = none ∨ y = some c := fun y hy => hl y (List.mem_cons_of_mem _ hy)
    rcases hl x (List.mem_cons_self ..) with h | h
    · subst h
      rw [checkCardinalitiesFrom, checkCardinalitiesFrom_ok c l b hl' hb]
      simp
    · subst h
      rcases hb with h | h
      · subst h
        simp only [checkCardinalitiesFrom]
        rw [checkCardinalitiesFrom_ok c l (some c) hl' (Or.inr rfl)]
        simp
      · subst h
        simp only [checkCardinalitiesFrom, if_true]
        rw [checkCardinalitiesFrom_ok c l (some c) hl' (Or.inr rfl)]
        simp

theorem checkBaseTypesFrom_ok (c : BaseType) : ∀ (l : List (Option BaseType)) (b : Option BaseType),
    (∀ x ∈ l, x = none ∨ x = some c) → (b = none ∨ b = some c) →
    checkBaseTypesFrom b l = .ok (if l.all (·.isNone) then b else some c)
  | [], b, _, _ => by simp [checkBaseTypesFrom]
  | x :: l, b, hl, hb => by
    have hl' : ∀ y ∈ l, y = none ∨ y = some c := fun y hy => hl y (List.mem_cons_of_mem _ hy)
    rcases hl x (List.mem_cons_self ..) with h | h
    · subst h
      rw [checkBaseTypesFrom, checkBaseTypesFrom_ok c l b hl' hb]
      simp
    · subst h
      rcases hb with h | h
      · subst h
        simp only [checkBaseTypesFrom]
        rw [checkBaseTypesFrom_ok c l (some c) hl' (Or.inr rfl)]
        simp
      · subst h
        simp only [checkBaseTypesFrom, if_true]
        rw [checkBaseTypesFrom_ok c l (some c) hl' (Or.inr rfl)]
        simp

/-- The single values of a base type, or NULL of unknown type, pass the checks for that type. -/
theorem allSingle_ok (bt : BaseType) (vs : List Value)
    (hc : ∀ v ∈ vs, v.card = none ∨ v.card = some .single) (hb : ∀ v ∈ vs, v.bt = none ∨ v.bt = some bt) :
    allSingle bt vs = .ok () := by
  have h1 : ∀ x ∈ vs.map Value.card ++ [some Card.single], x = none ∨ x = some Card.single := by
    intro x hx
    rw [List.mem_append] at hx
    rcases hx with hx | hx
    · rcases List.mem_map.mp hx with ⟨v, hv, rfl⟩
      exact hc v hv
    · right
      simpa using hx
  have h2 : ∀ x ∈ vs.map Value.bt ++ [some bt], x = none ∨ x = some bt := by
    intro x hx
    rw [List.mem_append] at hx
    rcases hx with hx | hx
    · rcases List.mem_map.mp hx with ⟨v, hv, rfl⟩
      exact hb v hv
    · right
      simpa using hx
  unfold allSingle checkCardinalities checkBaseTypes
  rw [checkCardinalitiesFrom_ok .single _ none h1 (Or.inl rfl), checkBaseTypesFrom_ok bt _ none h2 (Or.inl rfl)]
  rfl

theorem evalAll_ok (st : State) : ∀ (es : List Expr) (vs : List Value),
    evalAll st es = .ok vs ↔ Spec.Pointwise (fun e v => eval st e = .ok v) es vs
  | [], vs => by
    simp only [evalAll]
    constructor
    · intro h
      rw [← Except.ok.inj h]
      exact .nil
    · intro h
      cases h
      rfl
  | e :: es, vs => by
    rw [evalAll]
    constructor
    · intro h
      cases he : eval st e with
      | error x => rw [he] at h; cases h
      | ok v =>
        rw [he] at h
        cases hes : evalAll st es with
        | error x =>
          have : (Except.ok v >>= fun v => evalAll st es >>= fun vs => Except.ok (v :: vs)) =
            (Except.error x : Except Err (List Value)) := by rw [hes]; rfl
          rw [this] at h
          cases h
        | ok ws =>
          have : (Except.ok v >>= fun v => evalAll st es >>= fun vs => Except.ok (v :: vs)) =
            (Except.ok (v :: ws) : Except Err (List Value)) := by rw [hes]; rfl
          rw [this] at h
          rw [← Except.ok.inj h]
          exact .cons he ((evalAll_ok st es ws).mp hes)
    · intro h
      cases h with
      | @cons _ v _ ws he hes =>
        rw [he, (evalAll_ok st es ws).mpr hes]
        rfl

end Verif.Qti
