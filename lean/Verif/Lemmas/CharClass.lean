import Verif.Model.CharClass

/-! Lemmas about range lists: sortedness invariant, binary search, splicing. -/

set_option linter.unusedVariables false

namespace Verif.CC

open Verif

/-- Ranges are non-empty, disjoint and in order. -/
def Sorted (rs : List Rg) : Prop :=
  rs.Pairwise (fun r s => r.hi < s.lo) ∧ ∀ r ∈ rs, r.lo ≤ r.hi

/-- Membership of a code point. -/
def Mem (rs : List Rg) (c : Nat) : Prop := ∃ r ∈ rs, r.lo ≤ c ∧ c ≤ r.hi

theorem Sorted.nil : Sorted [] := ⟨List.Pairwise.nil, fun r h => by cases h⟩

/-- Number of ranges entirely below `c`. -/
def idx (rs : List Rg) (c : Nat) : Nat := rs.findIdx (fun r => decide (c ≤ r.hi))

theorem idx_le (rs : List Rg) (c : Nat) : idx rs c ≤ rs.length := List.findIdx_le_length

theorem idx_spec {rs : List Rg} {c i : Nat} (hi : i < rs.length) (h : i = idx rs c) : c ≤ rs[i].hi := by
  subst h
  have := List.findIdx_getElem (p := fun r : Rg => decide (c ≤ r.hi)) (w := hi)
  exact of_decide_eq_true this

theorem lt_idx {rs : List Rg} {c i : Nat} (hi : i < idx rs c) (hl : i < rs.length) : rs[i].hi < c := by
  have := List.not_of_lt_findIdx hi
  simpa using this

theorem Sorted.get_lt {rs : List Rg} (hs : Sorted rs) {i j : Nat} (hij : i < j) (hj : j < rs.length) :
    (rs[i]'(by omega)).hi < rs[j].lo :=
  (List.pairwise_iff_getElem.1 hs.1) i j (by omega) hj hij

theorem Sorted.get_le {rs : List Rg} (hs : Sorted rs) {i : Nat} (hj : i < rs.length) :
    rs[i].lo ≤ rs[i].hi := hs.2 _ (List.getElem_mem hj)

theorem Sorted.hi_mono {rs : List Rg} (hs : Sorted rs) {i j : Nat} (hij : i ≤ j) (hj : j < rs.length) :
    (rs[i]'(by omega)).hi ≤ rs[j].hi := by
  rcases Nat.eq_or_lt_of_le hij with h | h
  · subst h; exact Nat.le_refl _
  · have := hs.get_lt h hj
    have := hs.get_le hj
    omega

/-- An index with the two bounding properties is the search index. -/
theorem idx_unique {rs : List Rg} (hs : Sorted rs) {c i : Nat} (hi : i ≤ rs.length)
    (h1 : ∀ h : i < rs.length, c ≤ rs[i].hi) (h2 : ∀ (h : 0 < i), (rs[i - 1]'(by omega)).hi < c) :
    idx rs c = i := by
  rcases Nat.lt_trichotomy (idx rs c) i with h | h | h
  · have h3 := h2 (by omega)
    have h4 := idx_spec (rs := rs) (c := c) (i := idx rs c) (by omega) rfl
    have h5 := hs.hi_mono (i := idx rs c) (j := i - 1) (by omega) (by omega)
    omega
  · exact h
  · have := idx_le rs c
    have h3 := lt_idx h (by omega)
    have := h1 (by omega)
    omega

theorem bisect_eq {rs : List Rg} (hs : Sorted rs) (c : Nat) (rmin rmax : Nat) (hle : rmin ≤ rmax)
    (hl : rmax < rs.length) (h1 : ∀ h : 0 < rmin, (rs[rmin - 1]'(by omega)).hi < c)
    (h2 : rmax = rs.length - 1 ∨ c ≤ rs[rmax].hi) :
    (bisect rs c rmin rmax).2 = idx rs c ∧
    ((bisect rs c rmin rmax).1 = true ↔
      ∃ h : idx rs c < rs.length, (rs[idx rs c]).lo ≤ c ∧ c ≤ (rs[idx rs c]).hi) := by
  fun_induction bisect rs c rmin rmax with
  | case1 rmin rmax h rtry hc ih =>
    have ht : rtry < rs.length := by omega
    rw [getElem!_pos rs rtry ht] at hc
    exact ih (by omega) ht h1 (Or.inr hc)
  | case2 rmin rmax h rtry hc ih =>
    have ht : rtry < rs.length := by omega
    rw [getElem!_pos rs rtry ht] at hc
    exact ih (by omega) hl (fun _ => by simpa using (by omega : rs[rtry].hi < c)) h2
  | case3 rmin rmax h hc =>
    have ht : rmin < rs.length := by omega
    have he : rmin = rmax := by omega
    subst he
    rw [getElem!_pos rs rmin ht] at hc
    have hm : rmin = rs.length - 1 := by
      rcases h2 with h2 | h2
      · exact h2
      · omega
    have hi : idx rs c = rmin + 1 :=
      idx_unique hs (by omega) (fun h => by omega) (fun _ => by simpa using (by omega : rs[rmin].hi < c))
    refine ⟨hi.symm, ?_⟩
    simp
    intro h
    omega
  | case4 rmin rmax h hc hc2 =>
    have ht : rmin < rs.length := by omega
    have he : rmin = rmax := by omega
    subst he
    rw [getElem!_pos rs rmin ht] at hc hc2
    have hi : idx rs c = rmin := idx_unique hs (by omega) (fun h => by omega) h1
    refine ⟨hi.symm, ?_⟩
    simp [hi]
    intro h
    omega
  | case5 rmin rmax h hc hc2 =>
    have ht : rmin < rs.length := by omega
    have he : rmin = rmax := by omega
    subst he
    rw [getElem!_pos rs rmin ht] at hc hc2
    have hi : idx rs c = rmin := idx_unique hs (by omega) (fun h => by omega) h1
    refine ⟨hi.symm, ?_⟩
    simp [hi, ht]
    omega

theorem search_eq {rs : List Rg} (hs : Sorted rs) (hne : rs ≠ []) (c : Nat) :
    (search rs c).2 = idx rs c ∧
    ((search rs c).1 = true ↔
      ∃ h : idx rs c < rs.length, (rs[idx rs c]).lo ≤ c ∧ c ≤ (rs[idx rs c]).hi) := by
  have : 0 < rs.length := List.length_pos_iff.2 hne
  exact bisect_eq hs c 0 (rs.length - 1) (by omega) (by omega) (fun h => by omega) (Or.inl rfl)

/-- The search outcome in terms of the list. -/
theorem search_true {rs : List Rg} (hs : Sorted rs) (hne : rs ≠ []) {c : Nat}
    (h : (search rs c).1 = true) :
    ∃ hl : idx rs c < rs.length, (rs[idx rs c]).lo ≤ c ∧ c ≤ (rs[idx rs c]).hi :=
  (search_eq hs hne c).2.1 h

theorem search_false {rs : List Rg} (hs : Sorted rs) (hne : rs ≠ []) {c : Nat}
    (h : ¬ (search rs c).1 = true) (hl : idx rs c < rs.length) : c < (rs[idx rs c]).lo := by
  have h1 : ¬ ∃ h : idx rs c < rs.length, (rs[idx rs c]).lo ≤ c ∧ c ≤ (rs[idx rs c]).hi :=
    fun h' => h ((search_eq hs hne c).2.2 h')
  have h2 := idx_spec hl rfl
  rcases Nat.lt_or_ge c (rs[idx rs c]).lo with h3 | h3
  · exact h3
  · exact absurd ⟨hl, h3, h2⟩ h1

theorem mem_iff_get {rs : List Rg} {c : Nat} :
    Mem rs c ↔ ∃ i, ∃ h : i < rs.length, rs[i].lo ≤ c ∧ c ≤ rs[i].hi := by
  unfold Mem
  constructor
  · rintro ⟨r, hr, h⟩
    obtain ⟨i, hi, rfl⟩ := List.mem_iff_getElem.1 hr
    exact ⟨i, hi, h⟩
  · rintro ⟨i, hi, h⟩
    exact ⟨_, List.getElem_mem hi, h⟩

theorem mem_iff_idx {rs : List Rg} (hs : Sorted rs) {c : Nat} :
    Mem rs c ↔ ∃ h : idx rs c < rs.length, (rs[idx rs c]).lo ≤ c ∧ c ≤ (rs[idx rs c]).hi := by
  rw [mem_iff_get]
  constructor
  · rintro ⟨i, hi, h1, h2⟩
    have : idx rs c = i := idx_unique hs (by omega) (fun _ => h2) (fun h0 => by
      have := hs.get_lt (i := i - 1) (j := i) (by omega) hi
      omega)
    subst this
    exact ⟨hi, h1, h2⟩
  · rintro ⟨hi, h⟩
    exact ⟨_, hi, h⟩

theorem test_iff {rs : List Rg} (hs : Sorted rs) (c : Nat) : test rs c = true ↔ Mem rs c := by
  unfold test
  by_cases hne : rs = []
  · subst hne
    simp [Mem]
  · rw [if_pos hne, mem_iff_idx hs]
    exact (search_eq hs hne c).2

theorem idx_mono {rs : List Rg} (hs : Sorted rs) {a z : Nat} (h : a ≤ z) : idx rs a ≤ idx rs z := by
  rcases Nat.lt_or_ge (idx rs z) (idx rs a) with h1 | h1
  · have := idx_le rs a
    have h2 := lt_idx h1 (by omega)
    have h3 := idx_spec (rs := rs) (c := z) (i := idx rs z) (by omega) rfl
    omega
  · exact h1

/-! ### Splicing -/

theorem length_splice {rs new : List Rg} {i j : Nat} (hi : i ≤ rs.length) (hj : j ≤ rs.length) :
    (splice rs i j new).length = i + new.length + (rs.length - j) := by
  unfold splice
  simp
  omega

/-- Splicing in one range keeps the list sorted when the range fits. -/
theorem sorted_splice {rs : List Rg} (hs : Sorted rs) {i j : Nat} (hij : i ≤ j) {x : Rg}
    (hx : x.lo ≤ x.hi) (hil : i ≤ rs.length) (hl : ∀ (h : 0 < i), (rs[i - 1]'(by omega)).hi < x.lo)
    (hr : ∀ h : j < rs.length, x.hi < rs[j].lo) : Sorted (splice rs i j [x]) := by
  have hsub : (rs.take i ++ rs.drop j).Sublist rs := by
    have h1 : (rs.drop j).Sublist (rs.drop i) := by
      have : rs.drop j = (rs.drop i).drop (j - i) := by rw [List.drop_drop]; congr 1; omega
      rw [this]; exact List.drop_sublist _ _
    have h2 := List.Sublist.append (List.Sublist.refl (rs.take i)) h1
    rwa [List.take_append_drop] at h2
  have hp := List.Pairwise.sublist hsub hs.1
  rw [List.pairwise_append] at hp
  constructor
  · unfold splice
    rw [List.append_assoc, List.pairwise_append]
    refine ⟨hp.1, ?_, ?_⟩
    · rw [List.singleton_append, List.pairwise_cons]
      refine ⟨?_, hp.2.1⟩
      intro r hr'
      obtain ⟨n, hn, rfl⟩ := List.mem_iff_getElem.1 hr'
      rw [List.getElem_drop]
      rw [List.length_drop] at hn
      have h1 := hr (by omega)
      rcases Nat.eq_zero_or_pos n with h0 | h0
      · subst h0; simpa using h1
      · have h2 := hs.get_lt (i := j) (j := j + n) (by omega) (by omega)
        have h3 := hs.get_le (i := j) (by omega)
        omega
    · intro r hr' s hs'
      rw [List.singleton_append, List.mem_cons] at hs'
      rcases hs' with rfl | hs'
      · obtain ⟨n, hn, rfl⟩ := List.mem_iff_getElem.1 hr'
        have hn' : n < i ∧ n < rs.length := by rw [List.length_take] at hn; omega
        rw [List.getElem_take]
        have h1 := hl (by omega)
        have h2 := hs.hi_mono (i := n) (j := i - 1) (by omega) (by omega)
        omega
      · exact hp.2.2 r hr' s hs'
  · intro r hr'
    unfold splice at hr'
    simp only [List.mem_append, List.mem_singleton] at hr'
    rcases hr' with (hr' | rfl) | hr'
    · exact hs.2 _ (List.mem_of_mem_take hr')
    · exact hx
    · exact hs.2 _ (List.mem_of_mem_drop hr')

/-- Removing a slice keeps the list sorted. -/
theorem sorted_splice_nil {rs : List Rg} (hs : Sorted rs) {i j : Nat} (hij : i ≤ j) :
    Sorted (splice rs i j []) := by
  have hsub : (splice rs i j []).Sublist rs := by
    unfold splice
    have h1 : (rs.drop j).Sublist (rs.drop i) := by
      have : rs.drop j = (rs.drop i).drop (j - i) := by rw [List.drop_drop]; congr 1; omega
      rw [this]; exact List.drop_sublist _ _
    have h2 := List.Sublist.append (List.Sublist.refl (rs.take i)) h1
    rw [List.take_append_drop] at h2
    simpa using h2
  exact ⟨List.Pairwise.sublist hsub hs.1, fun r hr => hs.2 _ (hsub.subset hr)⟩

theorem mem_splice {rs new : List Rg} {i j c : Nat} :
    Mem (splice rs i j new) c ↔
      (∃ n, ∃ h : n < rs.length, n < i ∧ rs[n].lo ≤ c ∧ c ≤ rs[n].hi) ∨ Mem new c ∨
      (∃ n, ∃ h : n < rs.length, j ≤ n ∧ rs[n].lo ≤ c ∧ c ≤ rs[n].hi) := by
  unfold splice Mem
  constructor
  · rintro ⟨r, hr, h⟩
    simp only [List.mem_append] at hr
    rcases hr with (hr | hr) | hr
    · obtain ⟨n, hn, rfl⟩ := List.mem_iff_getElem.1 hr
      rw [List.getElem_take] at h
      rw [List.length_take] at hn
      exact Or.inl ⟨n, by omega, by omega, h⟩
    · exact Or.inr (Or.inl ⟨r, hr, h⟩)
    · obtain ⟨n, hn, rfl⟩ := List.mem_iff_getElem.1 hr
      rw [List.getElem_drop] at h
      rw [List.length_drop] at hn
      exact Or.inr (Or.inr ⟨j + n, by omega, by omega, h⟩)
  · rintro (⟨n, hn, hi, h⟩ | ⟨r, hr, h⟩ | ⟨n, hn, hi, h⟩)
    · refine ⟨rs[n], ?_, h⟩
      simp only [List.mem_append]
      refine Or.inl (Or.inl ?_)
      rw [List.mem_iff_getElem]
      exact ⟨n, by rw [List.length_take]; omega, by rw [List.getElem_take]⟩
    · exact ⟨r, by simp only [List.mem_append]; exact Or.inl (Or.inr hr), h⟩
    · refine ⟨rs[n], ?_, h⟩
      simp only [List.mem_append]
      refine Or.inr ?_
      rw [List.mem_iff_getElem]
      refine ⟨n - j, by rw [List.length_drop]; omega, ?_⟩
      rw [List.getElem_drop]
      congr 1
      omega

theorem mem_one {x : Rg} {c : Nat} : Mem [x] c ↔ x.lo ≤ c ∧ c ≤ x.hi := by
  unfold Mem; simp

theorem mem_nil {c : Nat} : Mem [] c ↔ False := by
  unfold Mem; simp

/-- `Merge` changes neither the invariant nor the members. -/
theorem merge_ok (f : Nat) {rs : List Rg} (hs : Sorted rs) {i : Nat} (hi : i < rs.length) :
    Sorted (merge f rs i) ∧ ∀ c, Mem (merge f rs i) c ↔ Mem rs c := by
  unfold merge
  simp only []
  split
  · rename_i h0
    rw [getElem!_pos rs i hi, getElem!_pos rs (i - 1) (by omega)]
    split
    · rename_i hp
      have hpr := hs.get_lt (i := i - 1) (j := i) (by omega) hi
      have hpp := hs.get_le (i := i - 1) (by omega)
      have hrr := hs.get_le hi
      refine ⟨sorted_splice hs (by omega) (by simp only; omega) (by omega) (fun h => ?_) (fun h => ?_), ?_⟩
      · have := hs.get_lt (i := i - 1 - 1) (j := i - 1) (by omega) (by omega)
        exact this
      · exact hs.get_lt (i := i) (j := i + 1) (by omega) h
      · intro c
        rw [mem_splice, mem_one, mem_iff_get]
        constructor
        · rintro (⟨n, hn, _, h⟩ | h | ⟨n, hn, _, h⟩)
          · exact ⟨n, hn, h⟩
          · simp only at h
            rcases Nat.lt_or_ge (rs[i - 1]'(by omega)).hi c with h1 | h1
            · exact ⟨i, hi, by omega, by omega⟩
            · exact ⟨i - 1, by omega, h.1, h1⟩
          · exact ⟨n, hn, h⟩
        · rintro ⟨n, hn, h⟩
          rcases Nat.lt_trichotomy n (i - 1) with h1 | h1 | h1
          · exact Or.inl ⟨n, hn, h1, h⟩
          · subst h1
            exact Or.inr (Or.inl ⟨h.1, by simp only; omega⟩)
          · rcases Nat.lt_or_ge n (i + 1) with h2 | h2
            · have : n = i := by omega
              subst this
              exact Or.inr (Or.inl ⟨by simp only; omega, h.2⟩)
            · exact Or.inr (Or.inr ⟨n, hn, h2, h⟩)
    · exact ⟨hs, fun _ => Iff.rfl⟩
  · split
    · rename_i h0 hlen
      have h00 : i = 0 := by omega
      rw [getElem!_pos rs i hi, getElem!_pos rs (i + 1) (by omega)]
      split
      · have hpr := hs.get_lt (i := i) (j := i + 1) (by omega) (by omega)
        have hpp := hs.get_le (i := i + 1) (by omega)
        have hrr := hs.get_le hi
        refine ⟨sorted_splice hs (by omega) (by simp only; omega) (by omega) (fun h => by omega)
          (fun h => ?_), ?_⟩
        · exact hs.get_lt (i := i + 1) (j := i + 2) (by omega) h
        · intro c
          rw [mem_splice, mem_one, mem_iff_get]
          constructor
          · rintro (⟨n, hn, _, h⟩ | h | ⟨n, hn, _, h⟩)
            · exact ⟨n, hn, h⟩
            · simp only at h
              rcases Nat.lt_or_ge rs[i].hi c with h1 | h1
              · exact ⟨i + 1, by omega, by omega, h.2⟩
              · exact ⟨i, by omega, h.1, h1⟩
            · exact ⟨n, hn, h⟩
          · rintro ⟨n, hn, h⟩
            rcases Nat.lt_trichotomy n i with h1 | h1 | h1
            · exact Or.inl ⟨n, hn, h1, h⟩
            · subst h1
              exact Or.inr (Or.inl ⟨h.1, by simp only; omega⟩)
            · rcases Nat.lt_or_ge n (i + 2) with h2 | h2
              · have : n = i + 1 := by omega
                subst this
                exact Or.inr (Or.inl ⟨by simp only; omega, h.2⟩)
              · exact Or.inr (Or.inr ⟨n, hn, h2, h⟩)
      · exact ⟨hs, fun _ => Iff.rfl⟩
    · exact ⟨hs, fun _ => Iff.rfl⟩

/-- Replacing the slice `[i,j)` by one range covering exactly the old slice and `[a,z]`, then merging. -/
theorem splice_merge_ok (f : Nat) {rs : List Rg} (hs : Sorted rs) {i j a z : Nat} {x : Rg}
    (hij : i ≤ j) (hj : j ≤ rs.length) (hx : x.lo ≤ x.hi)
    (hl : ∀ (h : 0 < i), (rs[i - 1]'(by omega)).hi < x.lo)
    (hr : ∀ h : j < rs.length, x.hi < rs[j].lo)
    (hcov : ∀ n, ∀ h : n < rs.length, i ≤ n → n < j → x.lo ≤ rs[n].lo ∧ rs[n].hi ≤ x.hi)
    (haz : x.lo ≤ a ∧ z ≤ x.hi)
    (hsub : ∀ c, x.lo ≤ c → c ≤ x.hi → Mem rs c ∨ (a ≤ c ∧ c ≤ z)) :
    Sorted (merge f (splice rs i j [x]) i) ∧
      ∀ c, Mem (merge f (splice rs i j [x]) i) c ↔ Mem rs c ∨ (a ≤ c ∧ c ≤ z) := by
  have h1 := sorted_splice hs hij hx (by omega) hl hr
  have h2 := merge_ok f h1 (i := i) (by rw [length_splice (by omega) hj]; simp; omega)
  refine ⟨h2.1, fun c => ?_⟩
  rw [h2.2, mem_splice, mem_one]
  constructor
  · rintro (⟨n, hn, _, h⟩ | h | ⟨n, hn, _, h⟩)
    · exact Or.inl (mem_iff_get.2 ⟨n, hn, h⟩)
    · exact hsub c h.1 h.2
    · exact Or.inl (mem_iff_get.2 ⟨n, hn, h⟩)
  · rintro (h | h)
    · obtain ⟨n, hn, h⟩ := mem_iff_get.1 h
      rcases Nat.lt_or_ge n i with h3 | h3
      · exact Or.inl ⟨n, hn, h3, h⟩
      · rcases Nat.lt_or_ge n j with h4 | h4
        · have := hcov n hn h3 h4
          exact Or.inr (Or.inl ⟨by omega, by omega⟩)
        · exact Or.inr (Or.inr ⟨n, hn, h4, h⟩)
    · exact Or.inr (Or.inl ⟨by omega, by omega⟩)

/-- `search` in the form used by the operations. -/
theorem search_pair {rs : List Rg} (hs : Sorted rs) (hne : rs ≠ []) (c : Nat) :
    search rs c = ((search rs c).1, idx rs c) := by
  rw [← (search_eq hs hne c).1]

theorem addRange_ok (f : Nat) {rs : List Rg} (hs : Sorted rs) (a z : Nat) :
    Sorted (addRange f rs a z) ∧
      ∀ c, Mem (addRange f rs a z) c ↔ Mem rs c ∨ (min a z ≤ c ∧ c ≤ max a z) := by
  have key : ∀ a z, a ≤ z → Sorted (addRange f rs a z) ∧
      ∀ c, Mem (addRange f rs a z) c ↔ Mem rs c ∨ (a ≤ c ∧ c ≤ z) := by
    intro a z haz
    unfold addRange
    rw [if_neg (by omega)]
    simp only []
    by_cases hne : rs = []
    · subst hne
      simp only [ne_eq, not_true_eq_false, if_false]
      refine ⟨⟨List.pairwise_singleton _ _, fun r hr => ?_⟩, fun c => ?_⟩
      · rw [List.mem_singleton] at hr; subst hr; exact haz
      · rw [mem_one, mem_nil]; simp
    · rw [if_pos hne, search_pair hs hne a, search_pair hs hne z]
      simp only []
      have hm := idx_mono hs haz
      have hla := idx_le rs a
      have hlz := idx_le rs z
      have hbelow : ∀ (h : 0 < idx rs a), (rs[idx rs a - 1]'(by omega)).hi < a :=
        fun h => lt_idx (by omega) (by omega)
      by_cases hA : (search rs a).1 = true
      · obtain ⟨hAl, hA1, hA2⟩ := search_true hs hne hA
        have hAlow : ∀ (h : 0 < idx rs a), (rs[idx rs a - 1]'(by omega)).hi < rs[idx rs a].lo :=
          fun h => hs.get_lt (by omega) hAl
        rw [if_pos hA]
        by_cases hZ : (search rs z).1 = true
        · obtain ⟨hZl, hZ1, hZ2⟩ := search_true hs hne hZ
          rw [if_pos hZ]
          by_cases he : idx rs a = idx rs z
          · rw [if_pos he]
            refine ⟨hs, fun c => ⟨Or.inl, ?_⟩⟩
            rintro (h | h)
            · exact h
            · refine mem_iff_get.2 ⟨idx rs a, hAl, by omega, ?_⟩
              have : rs[idx rs a].hi = rs[idx rs z].hi := by simp only [he]
              omega
          · rw [if_neg he, getElem!_pos rs _ hAl, getElem!_pos rs _ hZl]
            refine splice_merge_ok (f + 1) hs (by omega) (by omega) (by simp only; omega) ?_ ?_ ?_ ?_ ?_
            · intro h; exact hAlow h
            · intro h; exact hs.get_lt (by omega) h
            · intro n hn h1 h2
              constructor
              · show rs[idx rs a].lo ≤ rs[n].lo
                rcases Nat.eq_or_lt_of_le h1 with h3 | h3
                · subst h3; exact Nat.le_refl _
                · have := hs.get_lt h3 hn; have := hs.get_le hAl; omega
              · exact hs.hi_mono (by omega) hZl
            · exact ⟨hA1, hZ2⟩
            · intro c h1 h2
              simp only at h1 h2
              rcases Nat.lt_or_ge c a with h3 | h3
              · exact Or.inl (mem_iff_get.2 ⟨_, hAl, by omega, by omega⟩)
              · rcases Nat.lt_or_ge z c with h4 | h4
                · exact Or.inl (mem_iff_get.2 ⟨_, hZl, by omega, by omega⟩)
                · exact Or.inr ⟨h3, h4⟩
        · have hZ' := search_false hs hne hZ
          have hlt : idx rs a < idx rs z := by
            rcases Nat.lt_or_ge (idx rs a) (idx rs z) with h | h
            · exact h
            · have he : idx rs z = idx rs a := by omega
              have h1 := hZ' (by omega)
              have : rs[idx rs z].lo = rs[idx rs a].lo := by simp only [he]
              omega
          rw [if_neg hZ, getElem!_pos rs _ hAl]
          refine splice_merge_ok (f + 1) hs (by omega) (by omega) (by simp only; omega) ?_ ?_ ?_ ?_ ?_
          · intro h; exact hAlow h
          · intro h; exact hZ' h
          · intro n hn h1 h2
            constructor
            · show rs[idx rs a].lo ≤ rs[n].lo
              rcases Nat.eq_or_lt_of_le h1 with h3 | h3
              · subst h3; exact Nat.le_refl _
              · have := hs.get_lt h3 hn; have := hs.get_le hAl; omega
            · exact Nat.le_of_lt (lt_idx h2 hn)
          · exact ⟨hA1, Nat.le_refl _⟩
          · intro c h1 h2
            simp only at h1 h2
            rcases Nat.lt_or_ge c a with h3 | h3
            · exact Or.inl (mem_iff_get.2 ⟨_, hAl, by omega, by omega⟩)
            · exact Or.inr ⟨h3, h2⟩
      · have hA' := search_false hs hne hA
        have hcovA : ∀ n, ∀ h : n < rs.length, idx rs a ≤ n → a ≤ rs[n].lo := by
          intro n hn h1
          have h4 := hA' (by omega)
          rcases Nat.eq_or_lt_of_le h1 with h3 | h3
          · subst h3; omega
          · have := hs.get_lt h3 hn; have := hs.get_le (i := idx rs a) (by omega); omega
        rw [if_neg hA]
        by_cases hZ : (search rs z).1 = true
        · obtain ⟨hZl, hZ1, hZ2⟩ := search_true hs hne hZ
          rw [if_pos hZ, getElem!_pos rs _ hZl]
          refine splice_merge_ok (f + 1) hs (by omega) (by omega) (by simp only; omega) ?_ ?_ ?_ ?_ ?_
          · intro h; exact hbelow h
          · intro h; exact hs.get_lt (by omega) h
          · intro n hn h1 h2
            exact ⟨hcovA n hn h1, hs.hi_mono (by omega) hZl⟩
          · exact ⟨Nat.le_refl _, hZ2⟩
          · intro c h1 h2
            simp only at h1 h2
            rcases Nat.lt_or_ge z c with h4 | h4
            · exact Or.inl (mem_iff_get.2 ⟨_, hZl, by omega, by omega⟩)
            · exact Or.inr ⟨h1, h4⟩
        · have hZ' := search_false hs hne hZ
          rw [if_neg hZ]
          refine splice_merge_ok (f + 1) hs (by omega) (by omega) haz ?_ ?_ ?_ ?_ ?_
          · intro h; exact hbelow h
          · intro h; exact hZ' h
          · intro n hn h1 h2
            exact ⟨hcovA n hn h1, Nat.le_of_lt (lt_idx h2 hn)⟩
          · exact ⟨Nat.le_refl _, Nat.le_refl _⟩
          · intro c h1 h2
            exact Or.inr ⟨h1, h2⟩
  by_cases h : z < a
  · have hsw : addRange f rs a z = addRange f rs z a := by
      unfold addRange
      rw [if_pos h, if_neg (by omega)]
    rw [hsw]
    have := key z a (by omega)
    refine ⟨this.1, fun c => ?_⟩
    rw [this.2, Nat.min_eq_right (by omega), Nat.max_eq_left (by omega)]
  · have := key a z (by omega)
    refine ⟨this.1, fun c => ?_⟩
    rw [this.2, Nat.min_eq_left (by omega), Nat.max_eq_right (by omega)]

theorem addChar_ok (f : Nat) {rs : List Rg} (hs : Sorted rs) (c : Nat) :
    Sorted (addChar f rs c) ∧ ∀ d, Mem (addChar f rs c) d ↔ Mem rs d ∨ d = c := by
  unfold addChar
  by_cases hne : rs = []
  · subst hne
    simp only [ne_eq, not_true_eq_false, if_false]
    refine ⟨⟨List.pairwise_singleton _ _, fun r hr => ?_⟩, fun d => ?_⟩
    · rw [List.mem_singleton] at hr; subst hr; exact Nat.le_refl _
    · rw [mem_one, mem_nil]; simp only [false_or]; omega
  · rw [if_pos hne, search_pair hs hne c]
    simp only []
    have hl := idx_le rs c
    by_cases hA : (search rs c).1 = true
    · obtain ⟨hAl, hA1, hA2⟩ := search_true hs hne hA
      rw [if_neg (by simpa using hA)]
      refine ⟨hs, fun d => ⟨Or.inl, ?_⟩⟩
      rintro (h | rfl)
      · exact h
      · exact mem_iff_get.2 ⟨_, hAl, hA1, hA2⟩
    · have hA' := search_false hs hne hA
      rw [if_pos hA]
      have := splice_merge_ok (f + 1) hs (i := idx rs c) (j := idx rs c) (a := c) (z := c)
        (x := ⟨c, c, f⟩) (by omega) (by omega) (Nat.le_refl _)
        (fun h => lt_idx (c := c) (by omega) (by omega)) (fun h => hA' h)
        (fun n hn h1 h2 => by omega) ⟨Nat.le_refl _, Nat.le_refl _⟩
        (fun d h1 h2 => Or.inr ⟨h1, h2⟩)
      refine ⟨this.1, fun d => ?_⟩
      rw [this.2]
      constructor
      · rintro (h | h)
        · exact Or.inl h
        · exact Or.inr (by omega)
      · rintro (h | h)
        · exact Or.inl h
        · exact Or.inr (by omega)

/-- Replacing a slice by a sorted list of ranges that fit. -/
theorem sorted_splice_list {rs new : List Rg} (hs : Sorted rs) (hn : Sorted new) {i j : Nat} (hij : i ≤ j)
    (hj : j ≤ rs.length)
    (hb : ∀ x ∈ new, (∀ (h : 0 < i), (rs[i - 1]'(by omega)).hi < x.lo) ∧
      (∀ h : j < rs.length, x.hi < rs[j].lo)) : Sorted (splice rs i j new) := by
  have hsub : (rs.take i ++ rs.drop j).Sublist rs := by
    have h1 : (rs.drop j).Sublist (rs.drop i) := by
      have : rs.drop j = (rs.drop i).drop (j - i) := by rw [List.drop_drop]; congr 1; omega
      rw [this]; exact List.drop_sublist _ _
    have h2 := List.Sublist.append (List.Sublist.refl (rs.take i)) h1
    rwa [List.take_append_drop] at h2
  have hp := List.Pairwise.sublist hsub hs.1
  rw [List.pairwise_append] at hp
  constructor
  · unfold splice
    rw [List.append_assoc, List.pairwise_append]
    refine ⟨hp.1, ?_, ?_⟩
    · rw [List.pairwise_append]
      refine ⟨hn.1, hp.2.1, ?_⟩
      intro x hx r hr'
      obtain ⟨n, hn, rfl⟩ := List.mem_iff_getElem.1 hr'
      rw [List.getElem_drop]
      rw [List.length_drop] at hn
      have h1 := (hb x hx).2 (by omega)
      rcases Nat.eq_zero_or_pos n with h0 | h0
      · subst h0; simpa using h1
      · have h2 := hs.get_lt (i := j) (j := j + n) (by omega) (by omega)
        have h3 := hs.get_le (i := j) (by omega)
        omega
    · intro r hr' s hs'
      rw [List.mem_append] at hs'
      rcases hs' with hs' | hs'
      · obtain ⟨n, hn, rfl⟩ := List.mem_iff_getElem.1 hr'
        have hn' : n < i ∧ n < rs.length := by rw [List.length_take] at hn; omega
        rw [List.getElem_take]
        have h1 := (hb s hs').1 (by omega)
        have h2 := hs.hi_mono (i := n) (j := i - 1) (by omega) (by omega)
        omega
      · exact hp.2.2 r hr' s hs'
  · intro r hr'
    unfold splice at hr'
    simp only [List.mem_append] at hr'
    rcases hr' with (hr' | hr') | hr'
    · exact hs.2 _ (List.mem_of_mem_take hr')
    · exact hn.2 _ hr'
    · exact hs.2 _ (List.mem_of_mem_drop hr')

/-- Removing `[a,z]` from the slice `[i,j)`, outside which nothing meets `[a,z]`. -/
theorem splice_sub_ok {rs new : List Rg} (hs : Sorted rs) (hn : Sorted new) {i j a z : Nat} (hij : i ≤ j)
    (hj : j ≤ rs.length)
    (hb : ∀ x ∈ new, (∀ (h : 0 < i), (rs[i - 1]'(by omega)).hi < x.lo) ∧
      (∀ h : j < rs.length, x.hi < rs[j].lo))
    (hpre : ∀ n, ∀ h : n < rs.length, n < i → rs[n].hi < a)
    (hpost : ∀ n, ∀ h : n < rs.length, j ≤ n → z < rs[n].lo)
    (hmem : ∀ c, Mem new c ↔
      (∃ n, ∃ h : n < rs.length, i ≤ n ∧ n < j ∧ rs[n].lo ≤ c ∧ c ≤ rs[n].hi) ∧ ¬ (a ≤ c ∧ c ≤ z)) :
    Sorted (splice rs i j new) ∧
      ∀ c, Mem (splice rs i j new) c ↔ Mem rs c ∧ ¬ (a ≤ c ∧ c ≤ z) := by
  refine ⟨sorted_splice_list hs hn hij hj hb, fun c => ?_⟩
  rw [mem_splice, hmem, mem_iff_get]
  constructor
  · rintro (⟨n, hn, h1, h⟩ | ⟨⟨n, hn, _, _, h⟩, h'⟩ | ⟨n, hn, h1, h⟩)
    · have := hpre n hn h1
      exact ⟨⟨n, hn, h⟩, by omega⟩
    · exact ⟨⟨n, hn, h⟩, h'⟩
    · have := hpost n hn h1
      exact ⟨⟨n, hn, h⟩, by omega⟩
  · rintro ⟨⟨n, hn, h⟩, h'⟩
    rcases Nat.lt_or_ge n i with h3 | h3
    · exact Or.inl ⟨n, hn, h3, h⟩
    · rcases Nat.lt_or_ge n j with h4 | h4
      · exact Or.inr (Or.inl ⟨⟨n, hn, h3, h4, h⟩, h'⟩)
      · exact Or.inr (Or.inr ⟨n, hn, h4, h⟩)

theorem modifyAt_eq {rs : List Rg} {i : Nat} (hi : i < rs.length) (f : Rg → Rg) :
    modifyAt rs i f = splice rs i (i + 1) [f rs[i]] := by
  unfold modifyAt splice
  rw [getElem!_pos rs i hi, List.set_eq_take_append_cons_drop, if_pos hi]
  simp

theorem take_modifyAt {rs : List Rg} {i : Nat} (hi : i < rs.length) (f : Rg → Rg) :
    (modifyAt rs i f).take (i + 1) = rs.take i ++ [f rs[i]] := by
  rw [modifyAt_eq hi]
  unfold splice
  rw [List.take_append_of_le_length (by simp; omega), List.take_of_length_le (by simp; omega)]

theorem drop_modifyAt {rs : List Rg} {i j : Nat} (hi : i < j) (f : Rg → Rg) :
    (modifyAt rs i f).drop j = rs.drop j := by
  unfold modifyAt
  rw [List.drop_set_of_lt hi]

theorem take_modifyAt_le {rs : List Rg} {i j : Nat} (hi : j ≤ i) (f : Rg → Rg) :
    (modifyAt rs i f).take j = rs.take j := by
  unfold modifyAt
  rw [List.take_set_of_le hi]

theorem drop_modifyAt_self {rs : List Rg} {i : Nat} (hi : i < rs.length) (f : Rg → Rg) :
    (modifyAt rs i f).drop i = f rs[i] :: rs.drop (i + 1) := by
  rw [modifyAt_eq hi]
  unfold splice
  rw [List.append_assoc, List.drop_append_of_le_length (by simp; omega),
    List.drop_of_length_le (by simp; omega)]
  simp

theorem length_modifyAt {rs : List Rg} {i : Nat} (f : Rg → Rg) : (modifyAt rs i f).length = rs.length := by
  unfold modifyAt; simp

theorem sorted_one {x : Rg} (h : x.lo ≤ x.hi) : Sorted [x] :=
  ⟨List.pairwise_singleton _ _, fun r hr => by rw [List.mem_singleton] at hr; subst hr; exact h⟩

theorem sorted_two {x y : Rg} (h : x.lo ≤ x.hi) (h' : y.lo ≤ y.hi) (hxy : x.hi < y.lo) : Sorted [x, y] :=
  ⟨by simp [hxy], fun r hr => by
    simp only [List.mem_cons, List.not_mem_nil, or_false] at hr
    rcases hr with rfl | rfl <;> assumption⟩

theorem mem_two {x y : Rg} {c : Nat} : Mem [x, y] c ↔ (x.lo ≤ c ∧ c ≤ x.hi) ∨ (y.lo ≤ c ∧ c ≤ y.hi) := by
  unfold Mem; simp

/-- A list of ranges inside `[lo,hi]` with the given members. -/
def Piece (l : List Rg) (P : Nat → Prop) (lo hi : Nat) : Prop :=
  Sorted l ∧ (∀ c, Mem l c ↔ P c) ∧ ∀ x ∈ l, lo ≤ x.lo ∧ x.hi ≤ hi

theorem Piece.append {l m : List Rg} {P Q : Nat → Prop} {lo hi lo' hi' : Nat}
    (h : Piece l P lo hi) (h' : Piece m Q lo' hi') (hlt : hi < lo') :
    Sorted (l ++ m) ∧ (∀ c, Mem (l ++ m) c ↔ P c ∨ Q c) := by
  obtain ⟨h1, h2, h3⟩ := h
  obtain ⟨g1, g2, g3⟩ := h'
  refine ⟨⟨?_, ?_⟩, ?_⟩
  · rw [List.pairwise_append]
    refine ⟨h1.1, g1.1, fun r hr s hs => ?_⟩
    have := (h3 r hr).2
    have := (g3 s hs).1
    omega
  · intro r hr
    rw [List.mem_append] at hr
    rcases hr with hr | hr
    · exact h1.2 r hr
    · exact g1.2 r hr
  · intro c
    rw [← h2, ← g2]
    unfold Mem
    constructor
    · rintro ⟨r, hr, h⟩
      rw [List.mem_append] at hr
      rcases hr with hr | hr
      · exact Or.inl ⟨r, hr, h⟩
      · exact Or.inr ⟨r, hr, h⟩
    · rintro (⟨r, hr, h⟩ | ⟨r, hr, h⟩)
      · exact ⟨r, List.mem_append.2 (Or.inl hr), h⟩
      · exact ⟨r, List.mem_append.2 (Or.inr hr), h⟩

/-- What is left of `r` below `a`. -/
def leftPiece (a : Nat) (r : Rg) : List Rg :=
  if r.lo = r.hi ∨ a = r.lo then [] else [{ r with hi := a - 1 }]

/-- What is left of `r` above `z`. -/
def rightPiece (z : Nat) (r : Rg) : List Rg :=
  if r.lo = r.hi ∨ z = r.hi then [] else [{ r with lo := z + 1 }]

theorem leftPiece_ok {a : Nat} {r : Rg} (h1 : r.lo ≤ a) (h2 : a ≤ r.hi) :
    Piece (leftPiece a r) (fun c => r.lo ≤ c ∧ c < a) r.lo (a - 1) := by
  unfold leftPiece Piece
  split
  · refine ⟨Sorted.nil, fun c => ?_, fun x hx => by cases hx⟩
    rw [mem_nil]
    simp only [false_iff]
    omega
  · refine ⟨sorted_one (by simp only; omega), fun c => ?_, fun x hx => ?_⟩
    · rw [mem_one]; simp only; omega
    · rw [List.mem_singleton] at hx; subst hx; simp only; omega

theorem rightPiece_ok {z : Nat} {r : Rg} (h1 : r.lo ≤ z) (h2 : z ≤ r.hi) :
    Piece (rightPiece z r) (fun c => z < c ∧ c ≤ r.hi) (z + 1) r.hi := by
  unfold rightPiece Piece
  split
  · refine ⟨Sorted.nil, fun c => ?_, fun x hx => by cases hx⟩
    rw [mem_nil]
    simp only [false_iff]
    omega
  · refine ⟨sorted_one (by simp only; omega), fun c => ?_, fun x hx => ?_⟩
    · rw [mem_one]; simp only; omega
    · rw [List.mem_singleton] at hx; subst hx; simp only; omega

/-- Removing `[a,z]` inside one range. -/
theorem inside_ok {rs : List Rg} (hs : Sorted rs) {i a z : Nat} (hi : i < rs.length) (haz : a ≤ z)
    (h1 : rs[i].lo ≤ a) (h2 : z ≤ rs[i].hi) {new : List Rg} (hn : Sorted new)
    (hm : ∀ c, Mem new c ↔ rs[i].lo ≤ c ∧ c ≤ rs[i].hi ∧ ¬ (a ≤ c ∧ c ≤ z))
    (hb : ∀ x ∈ new, rs[i].lo ≤ x.lo ∧ x.hi ≤ rs[i].hi) :
    Sorted (splice rs i (i + 1) new) ∧
      ∀ c, Mem (splice rs i (i + 1) new) c ↔ Mem rs c ∧ ¬ (a ≤ c ∧ c ≤ z) := by
  refine splice_sub_ok hs hn (by omega) (by omega) ?_ ?_ ?_ ?_
  · intro x hx
    have := hb x hx
    refine ⟨fun h => ?_, fun h => ?_⟩
    · have := hs.get_lt (i := i - 1) (j := i) (by omega) hi; omega
    · have := hs.get_lt (i := i) (j := i + 1) (by omega) h; omega
  · intro n hn h
    have := hs.get_lt h hi; omega
  · intro n hn h
    have := hs.get_lt (i := i) (j := n) (by omega) hn; omega
  · intro c
    rw [hm]
    constructor
    · rintro ⟨g1, g2, g3⟩
      exact ⟨⟨i, hi, by omega, by omega, g1, g2⟩, g3⟩
    · rintro ⟨⟨n, hn, g1, g2, g3⟩, g4⟩
      have : n = i := by omega
      subst this
      exact ⟨g3.1, g3.2, g4⟩

theorem subtractRange_ok (f : Nat) {rs : List Rg} (hs : Sorted rs) (a z : Nat) :
    Sorted (subtractRange f rs a z) ∧
      ∀ c, Mem (subtractRange f rs a z) c ↔ Mem rs c ∧ ¬ (min a z ≤ c ∧ c ≤ max a z) := by
  have key : ∀ a z, a ≤ z → Sorted (subtractRange f rs a z) ∧
      ∀ c, Mem (subtractRange f rs a z) c ↔ Mem rs c ∧ ¬ (a ≤ c ∧ c ≤ z) := by
    intro a z haz
    unfold subtractRange
    rw [if_neg (by omega)]
    simp only []
    by_cases hne : rs = []
    · subst hne
      simp only [ne_eq, not_true_eq_false, if_false]
      refine ⟨hs, fun c => ?_⟩
      rw [mem_nil]; simp
    · rw [if_pos hne, search_pair hs hne a, search_pair hs hne z]
      simp only []
      have hm := idx_mono hs haz
      have hla := idx_le rs a
      have hlz := idx_le rs z
      have hpre : ∀ n, ∀ h : n < rs.length, n < idx rs a → rs[n].hi < a := fun n h h' => lt_idx h' h
      have hpostM : ∀ (hZl : idx rs z < rs.length), z ≤ rs[idx rs z].hi →
          ∀ n, ∀ h : n < rs.length, idx rs z + 1 ≤ n → z < rs[n].lo := by
        intro hZl h1 n hn h2
        have := hs.get_lt (i := idx rs z) (j := n) (by omega) hn
        omega
      have hpostN : ¬ (search rs z).1 = true →
          ∀ n, ∀ h : n < rs.length, idx rs z ≤ n → z < rs[n].lo := by
        intro hZ n hn h2
        have h3 := search_false hs hne hZ (by omega)
        rcases Nat.eq_or_lt_of_le h2 with h4 | h4
        · subst h4; exact h3
        · have := hs.get_lt (i := idx rs z) (j := n) (by omega) hn
          have := hs.get_le (i := idx rs z) (by omega)
          omega
      by_cases hA : (search rs a).1 = true
      · obtain ⟨hAl, hA1, hA2⟩ := search_true hs hne hA
        have hAlow : ∀ (h : 0 < idx rs a), (rs[idx rs a - 1]'(by omega)).hi < rs[idx rs a].lo :=
          fun h => hs.get_lt (by omega) hAl
        rw [if_pos hA, getElem!_pos rs _ hAl]
        by_cases hZ : (search rs z).1 = true
        · obtain ⟨hZl, hZ1, hZ2⟩ := search_true hs hne hZ
          rw [if_pos hZ]
          by_cases he : idx rs a = idx rs z
          · have hz2 : z ≤ rs[idx rs a].hi := by
              have : rs[idx rs a].hi = rs[idx rs z].hi := by simp only [he]
              omega
            rw [if_pos he]
            split
            · refine inside_ok hs hAl haz hA1 hz2 Sorted.nil (fun c => ?_) (fun x hx => by cases hx)
              rw [mem_nil]
              simp only [false_iff]
              omega
            · split
              · rw [modifyAt_eq hAl]
                refine inside_ok hs hAl haz hA1 hz2 (sorted_one (by simp only; omega)) (fun c => ?_)
                  (fun x hx => ?_)
                · rw [mem_one]; simp only; omega
                · rw [List.mem_singleton] at hx; subst hx; simp only; omega
              · split
                · rw [modifyAt_eq hAl]
                  refine inside_ok hs hAl haz hA1 hz2 (sorted_one (by simp only; omega)) (fun c => ?_)
                    (fun x hx => ?_)
                  · rw [mem_one]; simp only; omega
                  · rw [List.mem_singleton] at hx; subst hx; simp only; omega
                · have heq : splice (modifyAt rs (idx rs a) (fun r => { r with hi := a - 1 }))
                      (idx rs a + 1) (idx rs a + 1) [⟨z + 1, rs[idx rs a].hi, f⟩]
                      = splice rs (idx rs a) (idx rs a + 1)
                        [{ rs[idx rs a] with hi := a - 1 }, ⟨z + 1, rs[idx rs a].hi, f⟩] := by
                    unfold splice
                    rw [take_modifyAt hAl, drop_modifyAt (by omega)]
                    simp
                  rw [heq]
                  refine inside_ok hs hAl haz hA1 hz2
                    (sorted_two (by simp only; omega) (by simp only; omega) (by simp only; omega))
                    (fun c => ?_) (fun x hx => ?_)
                  · rw [mem_two]; simp only; omega
                  · simp only [List.mem_cons, List.not_mem_nil, or_false] at hx
                    rcases hx with rfl | rfl <;> simp only <;> omega
          · rw [if_neg he]
            -- the two trimmed pieces
            have hL := leftPiece_ok hA1 hA2
            have hR := rightPiece_ok hZ1 hZ2
            have hZAlt := hs.get_lt (i := idx rs a) (j := idx rs z) (by omega) hZl
            have heq : (if rs[idx rs a].lo = rs[idx rs a].hi ∨ a = rs[idx rs a].lo then (rs, idx rs a)
                else (modifyAt rs (idx rs a) (fun r => { r with hi := a - 1 }), idx rs a + 1)).1[idx rs z]!
                = rs[idx rs z] := by
              split
              · exact getElem!_pos rs _ hZl
              · simp only []
                unfold modifyAt
                rw [getElem!_pos _ _ (by simpa using hZl), List.getElem_set_ne he]
            have hgoal : ∀ rs' snA snZ,
                rs'.take snA = rs.take (idx rs a) ++ leftPiece a rs[idx rs a] →
                rs'.drop snZ = rightPiece z rs[idx rs z] ++ rs.drop (idx rs z + 1) →
                splice rs' snA snZ [] = splice rs (idx rs a) (idx rs z + 1)
                  (leftPiece a rs[idx rs a] ++ rightPiece z rs[idx rs z]) := by
              intro rs' snA snZ h1 h2
              unfold splice
              rw [h1, h2]
              simp
            have hfin : Sorted (splice rs (idx rs a) (idx rs z + 1)
                  (leftPiece a rs[idx rs a] ++ rightPiece z rs[idx rs z])) ∧
                ∀ c, Mem (splice rs (idx rs a) (idx rs z + 1)
                  (leftPiece a rs[idx rs a] ++ rightPiece z rs[idx rs z])) c ↔
                  Mem rs c ∧ ¬ (a ≤ c ∧ c ≤ z) := by
              have happ := hL.append hR (by omega)
              refine splice_sub_ok hs happ.1 (by omega) (by omega) ?_ hpre (hpostM hZl hZ2) ?_
              · intro x hx
                rw [List.mem_append] at hx
                refine ⟨fun h => ?_, fun h => ?_⟩
                · have g1 := hAlow h
                  rcases hx with hx | hx
                  · have := hL.2.2 x hx; omega
                  · have := hR.2.2 x hx; omega
                · have g1 := hs.get_lt (i := idx rs z) (j := idx rs z + 1) (by omega) h
                  rcases hx with hx | hx
                  · have := hL.2.2 x hx; omega
                  · have := hR.2.2 x hx; omega
              · intro c
                rw [happ.2]
                constructor
                · rintro (h | h)
                  · exact ⟨⟨idx rs a, hAl, by omega, by omega, by omega, by omega⟩, by omega⟩
                  · exact ⟨⟨idx rs z, hZl, by omega, by omega, by omega, by omega⟩, by omega⟩
                · rintro ⟨⟨n, hn, g1, g2, g3⟩, g4⟩
                  rcases Nat.lt_or_ge c a with h3 | h3
                  · refine Or.inl ⟨?_, h3⟩
                    rcases Nat.eq_or_lt_of_le g1 with h4 | h4
                    · subst h4; exact g3.1
                    · have := hs.get_lt h4 hn; omega
                  · refine Or.inr ⟨by omega, ?_⟩
                    have := hs.hi_mono (i := n) (j := idx rs z) (by omega) hZl
                    omega
            by_cases hcA : rs[idx rs a].lo = rs[idx rs a].hi ∨ a = rs[idx rs a].lo
            · have hlp : leftPiece a rs[idx rs a] = [] := by unfold leftPiece; rw [if_pos hcA]
              rw [if_pos hcA] at heq ⊢
              simp only [] at heq ⊢
              rw [heq]
              by_cases hcZ : rs[idx rs z].lo = rs[idx rs z].hi ∨ z = rs[idx rs z].hi
              · have hrp : rightPiece z rs[idx rs z] = [] := by unfold rightPiece; rw [if_pos hcZ]
                rw [if_pos hcZ]
                simp only []
                rw [if_pos (by omega), hgoal rs _ _ (by rw [hlp]; simp) (by rw [hrp]; simp)]
                exact hfin
              · have hrp : rightPiece z rs[idx rs z] = [{ rs[idx rs z] with lo := z + 1 }] := by
                  unfold rightPiece; rw [if_neg hcZ]
                rw [if_neg hcZ]
                simp only []
                rw [if_pos (by omega), hgoal _ _ _ (by rw [hlp, take_modifyAt_le (by omega)]; simp)
                  (by rw [hrp, drop_modifyAt_self hZl]; simp)]
                exact hfin
            · have hlp : leftPiece a rs[idx rs a] = [{ rs[idx rs a] with hi := a - 1 }] := by
                unfold leftPiece; rw [if_neg hcA]
              rw [if_neg hcA] at heq ⊢
              simp only [] at heq ⊢
              rw [heq]
              by_cases hcZ : rs[idx rs z].lo = rs[idx rs z].hi ∨ z = rs[idx rs z].hi
              · have hrp : rightPiece z rs[idx rs z] = [] := by unfold rightPiece; rw [if_pos hcZ]
                rw [if_pos hcZ]
                simp only []
                rw [if_pos (by omega), hgoal _ _ _ (by rw [hlp, take_modifyAt hAl])
                  (by rw [hrp, drop_modifyAt (by omega)]; simp)]
                exact hfin
              · have hrp : rightPiece z rs[idx rs z] = [{ rs[idx rs z] with lo := z + 1 }] := by
                  unfold rightPiece; rw [if_neg hcZ]
                have hlen : idx rs z <
                    (modifyAt rs (idx rs a) (fun r => { r with hi := a - 1 })).length := by
                  rw [length_modifyAt]; exact hZl
                rw [if_neg hcZ]
                simp only []
                rw [if_pos (by omega), hgoal _ _ _ (by rw [hlp, take_modifyAt_le (by omega), take_modifyAt hAl])
                  (by
                    rw [hrp, drop_modifyAt_self hlen, drop_modifyAt (by omega)]
                    have heq' := heq
                    rw [getElem!_pos (modifyAt rs (idx rs a) (fun r => { r with hi := a - 1 })) _ hlen] at heq'
                    rw [heq']; simp)]
                exact hfin
        · rw [if_neg hZ]
          have hlt : idx rs a < idx rs z := by
            rcases Nat.lt_or_ge (idx rs a) (idx rs z) with h | h
            · exact h
            · have he : idx rs z = idx rs a := by omega
              have h1 := search_false hs hne hZ (by omega)
              have : rs[idx rs z].lo = rs[idx rs a].lo := by simp only [he]
              omega
          have hL := leftPiece_ok hA1 hA2
          have hfin : Sorted (splice rs (idx rs a) (idx rs z) (leftPiece a rs[idx rs a])) ∧
              ∀ c, Mem (splice rs (idx rs a) (idx rs z) (leftPiece a rs[idx rs a])) c ↔
                Mem rs c ∧ ¬ (a ≤ c ∧ c ≤ z) := by
            refine splice_sub_ok hs hL.1 (by omega) (by omega) ?_ hpre (hpostN hZ) ?_
            · intro x hx
              have := hL.2.2 x hx
              refine ⟨fun h => ?_, fun h => ?_⟩
              · have g1 := hAlow h; omega
              · have g1 := hpostN hZ _ h (by omega); omega
            · intro c
              rw [hL.2.1]
              constructor
              · rintro h
                exact ⟨⟨idx rs a, hAl, by omega, by omega, by omega, by omega⟩, by omega⟩
              · rintro ⟨⟨n, hn, g1, g2, g3⟩, g4⟩
                have h5 := lt_idx g2 hn
                refine ⟨?_, by omega⟩
                rcases Nat.eq_or_lt_of_le g1 with h4 | h4
                · subst h4; exact g3.1
                · have := hs.get_lt h4 hn; omega
          by_cases hcA : rs[idx rs a].lo = rs[idx rs a].hi ∨ a = rs[idx rs a].lo
          · have hlp : leftPiece a rs[idx rs a] = [] := by unfold leftPiece; rw [if_pos hcA]
            rw [if_pos hcA]
            simp only []
            rw [← hlp]
            exact hfin
          · have hlp : leftPiece a rs[idx rs a] = [{ rs[idx rs a] with hi := a - 1 }] := by
              unfold leftPiece; rw [if_neg hcA]
            rw [if_neg hcA]
            simp only []
            have : splice (modifyAt rs (idx rs a) (fun r => { r with hi := a - 1 })) (idx rs a + 1)
                (idx rs z) [] = splice rs (idx rs a) (idx rs z) (leftPiece a rs[idx rs a]) := by
              unfold splice
              rw [hlp, take_modifyAt hAl, drop_modifyAt (by omega)]
              simp
            rw [this]
            exact hfin
      · have hA' := search_false hs hne hA
        have hcovA : ∀ n, ∀ h : n < rs.length, idx rs a ≤ n → a < rs[n].lo := by
          intro n hn h1
          have h4 := hA' (by omega)
          rcases Nat.eq_or_lt_of_le h1 with h3 | h3
          · subst h3; omega
          · have := hs.get_lt h3 hn; have := hs.get_le (i := idx rs a) (by omega); omega
        rw [if_neg hA]
        by_cases hZ : (search rs z).1 = true
        · obtain ⟨hZl, hZ1, hZ2⟩ := search_true hs hne hZ
          rw [if_pos hZ, getElem!_pos rs _ hZl]
          have hR := rightPiece_ok hZ1 hZ2
          have hfin : Sorted (splice rs (idx rs a) (idx rs z + 1) (rightPiece z rs[idx rs z])) ∧
              ∀ c, Mem (splice rs (idx rs a) (idx rs z + 1) (rightPiece z rs[idx rs z])) c ↔
                Mem rs c ∧ ¬ (a ≤ c ∧ c ≤ z) := by
            refine splice_sub_ok hs hR.1 (by omega) (by omega) ?_ hpre (hpostM hZl hZ2) ?_
            · intro x hx
              have := hR.2.2 x hx
              refine ⟨fun h => ?_, fun h => ?_⟩
              · have g1 := hpre (idx rs a - 1) (by omega) (by omega); omega
              · have g1 := hs.get_lt (i := idx rs z) (j := idx rs z + 1) (by omega) h; omega
            · intro c
              rw [hR.2.1]
              constructor
              · rintro h
                exact ⟨⟨idx rs z, hZl, by omega, by omega, by omega, by omega⟩, by omega⟩
              · rintro ⟨⟨n, hn, g1, g2, g3⟩, g4⟩
                have h5 := hcovA n hn g1
                have := hs.hi_mono (i := n) (j := idx rs z) (by omega) hZl
                exact ⟨by omega, by omega⟩
          by_cases hcZ : rs[idx rs z].lo = rs[idx rs z].hi ∨ z = rs[idx rs z].hi
          · have hrp : rightPiece z rs[idx rs z] = [] := by unfold rightPiece; rw [if_pos hcZ]
            rw [if_pos hcZ]
            simp only []
            rw [← hrp]
            exact hfin
          · have hrp : rightPiece z rs[idx rs z] = [{ rs[idx rs z] with lo := z + 1 }] := by
              unfold rightPiece; rw [if_neg hcZ]
            rw [if_neg hcZ]
            simp only []
            have : splice (modifyAt rs (idx rs z) (fun r => { r with lo := z + 1 })) (idx rs a)
                (idx rs z) [] = splice rs (idx rs a) (idx rs z + 1) (rightPiece z rs[idx rs z]) := by
              unfold splice
              rw [hrp, take_modifyAt_le (by omega), drop_modifyAt_self hZl]
              simp
            rw [this]
            exact hfin
        · rw [if_neg hZ]
          refine splice_sub_ok hs Sorted.nil (by omega) (by omega) (fun x hx => by cases hx) hpre
            (hpostN hZ) ?_
          intro c
          rw [mem_nil]
          simp only [false_iff]
          rintro ⟨⟨n, hn, g1, g2, g3⟩, g4⟩
          have h5 := hcovA n hn g1
          have h6 := lt_idx g2 hn
          omega
  by_cases h : z < a
  · have hsw : subtractRange f rs a z = subtractRange f rs z a := by
      unfold subtractRange
      rw [if_pos h, if_neg (by omega)]
    rw [hsw]
    have := key z a (by omega)
    refine ⟨this.1, fun c => ?_⟩
    rw [this.2, Nat.min_eq_right (by omega), Nat.max_eq_left (by omega)]
  · have := key a z (by omega)
    refine ⟨this.1, fun c => ?_⟩
    rw [this.2, Nat.min_eq_left (by omega), Nat.max_eq_right (by omega)]

theorem subtractChar_ok (f : Nat) {rs : List Rg} (hs : Sorted rs) (c : Nat) :
    Sorted (subtractChar f rs c) ∧ ∀ d, Mem (subtractChar f rs c) d ↔ Mem rs d ∧ d ≠ c := by
  have hfin : Sorted (subtractChar f rs c) ∧
      ∀ d, Mem (subtractChar f rs c) d ↔ Mem rs d ∧ ¬ (c ≤ d ∧ d ≤ c) := by
    unfold subtractChar
    by_cases hne : rs = []
    · subst hne
      simp only [ne_eq, not_true_eq_false, if_false]
      refine ⟨hs, fun d => ?_⟩
      rw [mem_nil]; simp
    · rw [if_pos hne, search_pair hs hne c]
      simp only []
      by_cases hA : (search rs c).1 = true
      · obtain ⟨hAl, hA1, hA2⟩ := search_true hs hne hA
        rw [if_pos hA, getElem!_pos rs _ hAl]
        split
        · refine inside_ok hs hAl (Nat.le_refl _) hA1 hA2 Sorted.nil (fun c => ?_) (fun x hx => by cases hx)
          rw [mem_nil]
          simp only [false_iff]
          omega
        · split
          · rw [modifyAt_eq hAl]
            refine inside_ok hs hAl (Nat.le_refl _) hA1 hA2 (sorted_one (by simp only; omega)) (fun c => ?_)
              (fun x hx => ?_)
            · rw [mem_one]; simp only; omega
            · rw [List.mem_singleton] at hx; subst hx; simp only; omega
          · split
            · rw [modifyAt_eq hAl]
              refine inside_ok hs hAl (Nat.le_refl _) hA1 hA2 (sorted_one (by simp only; omega)) (fun c => ?_)
                (fun x hx => ?_)
              · rw [mem_one]; simp only; omega
              · rw [List.mem_singleton] at hx; subst hx; simp only; omega
            · have heq : splice (modifyAt rs (idx rs c) (fun r => { r with hi := c - 1 }))
                  (idx rs c + 1) (idx rs c + 1) [⟨c + 1, rs[idx rs c].hi, f⟩]
                  = splice rs (idx rs c) (idx rs c + 1)
                    [{ rs[idx rs c] with hi := c - 1 }, ⟨c + 1, rs[idx rs c].hi, f⟩] := by
                unfold splice
                rw [take_modifyAt hAl, drop_modifyAt (by omega)]
                simp
              rw [heq]
              refine inside_ok hs hAl (Nat.le_refl _) hA1 hA2
                (sorted_two (by simp only; omega) (by simp only; omega) (by simp only; omega))
                (fun c => ?_) (fun x hx => ?_)
              · rw [mem_two]; simp only; omega
              · simp only [List.mem_cons, List.not_mem_nil, or_false] at hx
                rcases hx with rfl | rfl <;> simp only <;> omega
      · rw [if_neg hA]
        refine ⟨hs, fun d => ⟨fun h => ⟨h, ?_⟩, fun h => h.1⟩⟩
        intro h'
        have : d = c := by omega
        subst this
        obtain ⟨hl, h1, h2⟩ := (mem_iff_idx hs).1 h
        have := search_false hs hne hA hl
        omega
  refine ⟨hfin.1, fun d => ?_⟩
  rw [hfin.2]
  constructor <;> rintro ⟨h, h'⟩ <;> exact ⟨h, by omega⟩

end Verif.CC
