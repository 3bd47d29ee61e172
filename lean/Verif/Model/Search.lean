/-!
# First free name in a numbered sequence

The pattern `while name in table: name = next candidate` that occurs throughout the code
(imscp.py:52-58, imscp.py:60-80, imsqtiv1.py:531-540 …).  The candidates are pairwise different, so the
loop ends; the termination measure is the number of table entries not yet tried.
-/

namespace Verif

theorem filter_length_lt {α} (l : List α) (p q : α → Bool) (hpq : ∀ x, p x = true → q x = true)
    (x : α) (hx : x ∈ l) (hqx : q x = true) (hpx : p x = false) :
    (l.filter p).length < (l.filter q).length := by
  have le : ∀ l : List α, (l.filter p).length ≤ (l.filter q).length := by
    intro l
    induction l with
    | nil => simp
    | cons a t ih =>
      by_cases ha : p a = true
      · simp [ha, hpq a ha, ih]
      · by_cases hb : q a = true
        · simp [ha, hb]; omega
        · simp [ha, hb, ih]
  induction l with
  | nil => cases hx
  | cons a t ih =>
    rcases List.mem_cons.1 hx with e | e
    · subst e
      have := le t
      simp [hqx, hpx]; omega
    · have := ih e
      by_cases ha : p a = true
      · simp [ha, hpq a ha]; omega
      · by_cases hb : q a = true
        · simp [ha, hb]; omega
        · simp [ha, hb]; omega

/-- `i` counted up from the start value until `gen i` is not in `taken`. -/
def firstFree {α} [DecidableEq α] (taken : List α) (gen : Nat → α)
    (inj : ∀ i j, gen i = gen j → i = j) (i : Nat) : α :=
  if h : gen i ∈ taken then firstFree taken gen inj (i + 1) else gen i
termination_by (taken.filter (fun s => (List.range i).all (fun j => gen j ≠ s))).length
decreasing_by
  apply filter_length_lt _ _ _ _ (gen i) h
  · simp
    intro j hj e
    have := inj _ _ e
    omega
  · simp
    exact ⟨i, by omega, rfl⟩
  · intro x hx
    simp at hx ⊢
    intro j hj
    exact hx j (by omega)

theorem firstFree_not_mem {α} [DecidableEq α] (taken : List α) (gen : Nat → α)
    (inj : ∀ i j, gen i = gen j → i = j) (i : Nat) : firstFree taken gen inj i ∉ taken := by
  fun_induction firstFree taken gen inj i with
  | case1 i h ih => exact ih
  | case2 i h => exact h

/-- The result is the first candidate, from the start value on, that is free. -/
theorem firstFree_spec {α} [DecidableEq α] (taken : List α) (gen : Nat → α)
    (inj : ∀ i j, gen i = gen j → i = j) (i : Nat) :
    ∃ k, i ≤ k ∧ firstFree taken gen inj i = gen k ∧ ∀ j, i ≤ j → j < k → gen j ∈ taken := by
  fun_induction firstFree taken gen inj i with
  | case1 i h ih =>
    obtain ⟨k, hk, he, hj⟩ := ih
    refine ⟨k, by omega, he, fun j h1 h2 => ?_⟩
    by_cases hij : j = i
    · subst hij; exact h
    · exact hj j (by omega) h2
  | case2 i h => exact ⟨i, Nat.le_refl _, rfl, fun j h1 h2 => by omega⟩

theorem firstFree_of_free {α} [DecidableEq α] (taken : List α) (gen : Nat → α)
    (inj : ∀ i j, gen i = gen j → i = j) (i : Nat) (h : gen i ∉ taken) :
    firstFree taken gen inj i = gen i := by
  rw [firstFree]; simp [h]

end Verif
