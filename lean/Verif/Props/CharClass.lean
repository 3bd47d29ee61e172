import Verif.Lemmas.CharClass
import Verif.Spec.CharClass

/-! # C32–C34: character classes -/

set_option linter.unusedVariables false

namespace Verif.Props

open Verif Verif.CC Verif.Spec

theorem addClass_ok (f : Nat) {rs other : List Rg} (hs : Sorted rs) (ho : Sorted other) :
    Sorted (addClass f rs other) ∧ ∀ c, Mem (addClass f rs other) c ↔ Mem rs c ∨ Mem other c := by
  unfold addClass
  by_cases hne : rs = []
  · subst hne
    simp only [ne_eq, not_true_eq_false, if_false]
    exact ⟨ho, fun c => by rw [mem_nil]; simp⟩
  · rw [if_pos hne]
    clear hne
    have hle := ho.2
    clear ho
    induction other generalizing rs f with
    | nil => exact ⟨hs, fun c => by simp [mem_nil]⟩
    | cons r other ih =>
      rw [List.foldl_cons]
      have h1 := addRange_ok f hs r.lo r.hi
      have h2 := ih (f + 2) h1.1 (fun x hx => hle x (List.mem_cons_of_mem _ hx))
      refine ⟨h2.1, fun c => ?_⟩
      rw [h2.2, h1.2]
      have hr := hle r (by simp)
      rw [Nat.min_eq_left hr, Nat.max_eq_right hr]
      unfold Mem
      simp only [List.mem_cons, exists_eq_or_imp]
      exact or_assoc

theorem subtractClass_ok (f : Nat) {rs other : List Rg} (hs : Sorted rs) (ho : Sorted other) :
    Sorted (subtractClass f rs other) ∧ ∀ c, Mem (subtractClass f rs other) c ↔ Mem rs c ∧ ¬ Mem other c := by
  unfold subtractClass
  have hle := ho.2
  clear ho
  induction other generalizing rs f with
  | nil => exact ⟨hs, fun c => by simp [mem_nil]⟩
  | cons r other ih =>
    rw [List.foldl_cons]
    have h1 := subtractRange_ok f hs r.lo r.hi
    have h2 := ih (f + 1) h1.1 (fun x hx => hle x (List.mem_cons_of_mem _ hx))
    refine ⟨h2.1, fun c => ?_⟩
    rw [h2.2, h1.2]
    have hr := hle r (by simp)
    rw [Nat.min_eq_left hr, Nat.max_eq_right hr]
    unfold Mem
    simp only [List.mem_cons, exists_eq_or_imp, not_or]
    exact and_assoc

theorem negate_ok (f : Nat) {rs : List Rg} (hs : Sorted rs) :
    Sorted (negate f rs) ∧ ∀ c, Mem (negate f rs) c ↔ c ≤ maxunicode ∧ ¬ Mem rs c := by
  unfold negate
  have h := subtractClass_ok (f + 1) (rs := [⟨0, maxunicode, f⟩]) (sorted_one (by simp)) hs
  refine ⟨h.1, fun c => ?_⟩
  rw [h.2, mem_one]
  simp

theorem build_ok (e : ClassExpr) : Sorted e.build ∧ ∀ c, Mem e.build c ↔ e.members c := by
  induction e with
  | empty => exact ⟨Sorted.nil, fun c => by simp [ClassExpr.build, ClassExpr.members, mem_nil]⟩
  | addChar e c ih =>
    have := addChar_ok 0 ih.1 c
    exact ⟨this.1, fun d => by rw [ClassExpr.build, this.2, ih.2]; rfl⟩
  | addRange e a z ih =>
    have := addRange_ok 0 ih.1 a z
    refine ⟨this.1, fun d => ?_⟩
    rw [ClassExpr.build, this.2, ih.2, ClassExpr.members]
    have : (min a z ≤ d ∧ d ≤ max a z) ↔ ((a ≤ d ∧ d ≤ z) ∨ (z ≤ d ∧ d ≤ a)) := by omega
    rw [this]
  | addClass e o ih ih' =>
    have := addClass_ok 0 ih.1 ih'.1
    exact ⟨this.1, fun d => by rw [ClassExpr.build, this.2, ih.2, ih'.2]; rfl⟩
  | subtractChar e c ih =>
    have := subtractChar_ok 0 ih.1 c
    exact ⟨this.1, fun d => by rw [ClassExpr.build, this.2, ih.2]; rfl⟩
  | subtractRange e a z ih =>
    have := subtractRange_ok 0 ih.1 a z
    refine ⟨this.1, fun d => ?_⟩
    rw [ClassExpr.build, this.2, ih.2, ClassExpr.members]
    have : (min a z ≤ d ∧ d ≤ max a z) ↔ ((a ≤ d ∧ d ≤ z) ∨ (z ≤ d ∧ d ≤ a)) := by omega
    rw [this]
  | subtractClass e o ih ih' =>
    have := subtractClass_ok 0 ih.1 ih'.1
    exact ⟨this.1, fun d => by rw [ClassExpr.build, this.2, ih.2, ih'.2]; rfl⟩
  | negate e ih =>
    have := negate_ok 0 ih.1
    exact ⟨this.1, fun d => by rw [ClassExpr.build, this.2, ih.2]; rfl⟩

/-- **C32.** However a class is built, `Test` answers exactly whether the code point belongs to the set. -/
theorem class_test_correct (e : ClassExpr) (c : Nat) : test e.build c = true ↔ e.members c := by
  rw [test_iff (build_ok e).1, (build_ok e).2]

example : test (ClassExpr.subtractRange (.addChar (.addRange .empty 97 122) 48) 110 105).build 107 = false ∧
    test (ClassExpr.subtractRange (.addChar (.addRange .empty 97 122) 48) 110 105).build 111 = true := by
  decide +kernel

/-- **C32, refuted part.** A class subtracted from itself is not empty: the loop skips every other range. -/
theorem subtract_from_self_leaves_members :
    ∃ e : ClassExpr, test (subtractSelf 0 e.build 0 (e.build.length + 1)) 99 = true :=
  ⟨.addChar (.addChar .empty 97) 99, by decide +kernel⟩

/-! ## C33: equality -/

/-- Comparing equal implies having the same members. -/
theorem equal_classes_same_members (e e' : ClassExpr) (h : eq e.build e'.build = true) (c : Nat) :
    e.members c ↔ e'.members c := by
  have h' : e.build.map (fun r => (r.lo, r.hi)) = e'.build.map (fun r => (r.lo, r.hi)) := by
    unfold eq at h; exact of_decide_eq_true h
  rw [← (build_ok e).2, ← (build_ok e').2]
  have key : ∀ rs : List Rg, Mem rs c ↔ ∃ p ∈ rs.map (fun r => (r.lo, r.hi)), p.1 ≤ c ∧ c ≤ p.2 := by
    intro rs
    unfold Mem
    constructor
    · rintro ⟨r, hr, h⟩
      exact ⟨(r.lo, r.hi), List.mem_map.2 ⟨r, hr, rfl⟩, h⟩
    · rintro ⟨p, hp, h⟩
      obtain ⟨r, hr, rfl⟩ := List.mem_map.1 hp
      exact ⟨r, hr, h⟩
  rw [key, key, h']

/-- **C33, refuted.** The classes built from `"acd"` and from `"adc"` have the same members but compare
unequal. -/
theorem same_members_compare_unequal :
    ∃ e e' : ClassExpr, (∀ c, e.members c ↔ e'.members c) ∧ eq e.build e'.build = false := by
  refine ⟨.addChar (.addChar (.addChar .empty 97) 99) 100, .addChar (.addChar (.addChar .empty 97) 100) 99,
    fun c => ?_, by decide +kernel⟩
  simp only [ClassExpr.members, false_or]
  omega

/-- No two ranges of the class touch. -/
def Gapped (rs : List Rg) : Prop := rs.Pairwise (fun r s => r.hi + 1 < s.lo)

theorem gapped_unique {rs rs' : List Rg} (hs : Sorted rs) (hs' : Sorted rs') (hg : Gapped rs)
    (hg' : Gapped rs') (hm : ∀ c, Mem rs c ↔ Mem rs' c) :
    rs.map (fun r => (r.lo, r.hi)) = rs'.map (fun r => (r.lo, r.hi)) := by
  induction rs generalizing rs' with
  | nil =>
    cases rs' with
    | nil => rfl
    | cons r rs' =>
      have := (hm r.lo).2 ⟨r, by simp, Nat.le_refl _, hs'.2 r (by simp)⟩
      rw [mem_nil] at this
      exact this.elim
  | cons r rs ih =>
    cases rs' with
    | nil =>
      have := (hm r.lo).1 ⟨r, by simp, Nat.le_refl _, hs.2 r (by simp)⟩
      rw [mem_nil] at this
      exact this.elim
    | cons s rs' =>
      have hr := hs.2 r (by simp)
      have hs2 := hs'.2 s (by simp)
      have hp := List.pairwise_cons.1 hg
      have hp' := List.pairwise_cons.1 hg'
      have low : ∀ {r : Rg} {rs : List Rg}, (∀ x ∈ rs, r.hi + 1 < x.lo) → r.lo ≤ r.hi →
          ∀ c, Mem (r :: rs) c → r.lo ≤ c := by
        intro r rs h hle c hc
        obtain ⟨x, hx, h1, h2⟩ := hc
        rcases List.mem_cons.1 hx with rfl | hx
        · exact h1
        · have := h x hx; omega
      have head : ∀ {r : Rg} {rs : List Rg}, (∀ x ∈ rs, r.hi + 1 < x.lo) → ¬ Mem (r :: rs) (r.hi + 1) := by
        intro r rs h hc
        obtain ⟨x, hx, h1, h2⟩ := hc
        rcases List.mem_cons.1 hx with rfl | hx
        · omega
        · have := h x hx; omega
      have in_head : ∀ {r : Rg} {rs : List Rg} (c), r.lo ≤ c → c ≤ r.hi → Mem (r :: rs) c :=
        fun c h1 h2 => ⟨_, by simp, h1, h2⟩
      have hlo : r.lo = s.lo := by
        have h1 := low hp.1 hr _ ((hm s.lo).2 (in_head _ (Nat.le_refl _) hs2))
        have h2 := low hp'.1 hs2 _ ((hm r.lo).1 (in_head _ (Nat.le_refl _) hr))
        omega
      have hhi : r.hi = s.hi := by
        rcases Nat.lt_trichotomy r.hi s.hi with h | h | h
        · exact absurd ((hm _).2 (in_head (r := s) (rs := rs') (r.hi + 1) (by omega) (by omega))) (head hp.1)
        · exact h
        · exact absurd ((hm _).1 (in_head (r := r) (rs := rs) (s.hi + 1) (by omega) (by omega))) (head hp'.1)
      have htail : ∀ c, Mem rs c ↔ Mem rs' c := by
        intro c
        have e1 : Mem rs c ↔ Mem (r :: rs) c ∧ r.hi < c := by
          constructor
          · rintro ⟨x, hx, h1, h2⟩
            have := hp.1 x hx
            exact ⟨⟨x, by simp [hx], h1, h2⟩, by omega⟩
          · rintro ⟨⟨x, hx, h1, h2⟩, h3⟩
            rcases List.mem_cons.1 hx with rfl | hx
            · omega
            · exact ⟨x, hx, h1, h2⟩
        have e2 : Mem rs' c ↔ Mem (s :: rs') c ∧ s.hi < c := by
          constructor
          · rintro ⟨x, hx, h1, h2⟩
            have := hp'.1 x hx
            exact ⟨⟨x, by simp [hx], h1, h2⟩, by omega⟩
          · rintro ⟨⟨x, hx, h1, h2⟩, h3⟩
            rcases List.mem_cons.1 hx with rfl | hx
            · omega
            · exact ⟨x, hx, h1, h2⟩
        rw [e1, e2, hm, hhi]
      rw [List.map_cons, List.map_cons, hlo, hhi,
        ih ⟨(List.pairwise_cons.1 hs.1).2, fun x hx => hs.2 x (by simp [hx])⟩
          ⟨(List.pairwise_cons.1 hs'.1).2, fun x hx => hs'.2 x (by simp [hx])⟩ hp.2 hp'.2 htail]

/-- **C33, guarded.** Two classes in neither of which two ranges touch compare equal exactly when they have
the same members.  (What is missing: touching ranges do arise, see `same_members_compare_unequal`.) -/
theorem equal_iff_same_members_partial (e e' : ClassExpr) (hg : Gapped e.build) (hg' : Gapped e'.build) :
    eq e.build e'.build = true ↔ ∀ c, e.members c ↔ e'.members c := by
  constructor
  · exact equal_classes_same_members e e'
  · intro h
    unfold eq
    rw [decide_eq_true_iff]
    exact gapped_unique (build_ok e).1 (build_ok e').1 hg hg'
      (fun c => by rw [(build_ok e).2, (build_ok e').2]; exact h c)

example : Gapped (ClassExpr.addChar (.addChar (.addChar .empty 97) 99) 100).build ∧
    (ClassExpr.addChar (.addChar (.addChar .empty 97) 99) 100).build.length = 2 := by
  have : (ClassExpr.addChar (.addChar (.addChar .empty 97) 99) 100).build = [⟨97, 97, 0⟩, ⟨99, 100, 1⟩] := by
    decide +kernel
  rw [this]
  unfold Gapped
  decide

/-! ## C34: copies -/

/-- What the class object `k` answers for the code point `c`. -/
def answers (h : Heap) (k c : Nat) : Bool := test (h.load k) c

/-- **C34, refuted.** `d=CharClass(c)` followed by removing a character from `d` removes it from `c`. -/
theorem copy_not_independent :
    ∃ ops : List Op, ∃ h : Heap, h = ops.foldl Heap.step Heap.empty ∧ answers h 0 97 = true ∧
      -- object 1 becomes a copy of object 0, then loses 'a'
      answers ([Op.new 1, .addClass 1 0, .subtractChar 1 97].foldl Heap.step h) 0 97 = false :=
  ⟨[.new 0, .addRange 0 97 122], _, rfl, by decide +kernel, by decide +kernel⟩

theorem mem_splice_list {rs new : List Rg} {i j : Nat} {r : Rg} (h : r ∈ splice rs i j new) :
    r ∈ rs ∨ r ∈ new := by
  unfold splice at h
  simp only [List.mem_append] at h
  rcases h with (h | h) | h
  · exact Or.inl (List.mem_of_mem_take h)
  · exact Or.inr h
  · exact Or.inl (List.mem_of_mem_drop h)

theorem merge_tags {f : Nat} {rs : List Rg} {i : Nat} {r : Rg} (h : r ∈ merge f rs i) :
    r ∈ rs ∨ r.tag = f := by
  unfold merge at h
  simp only [] at h
  split at h
  · split at h
    · rcases mem_splice_list h with h | h
      · exact Or.inl h
      · rw [List.mem_singleton] at h; subst h; exact Or.inr rfl
    · exact Or.inl h
  · split at h
    · split at h
      · rcases mem_splice_list h with h | h
        · exact Or.inl h
        · rw [List.mem_singleton] at h; subst h; exact Or.inr rfl
      · exact Or.inl h
    · exact Or.inl h

theorem merge_splice_tags {f : Nat} {rs : List Rg} {i j k : Nat} {x r : Rg} (hx : x.tag = f)
    (h : r ∈ merge (f + 1) (splice rs i j [x]) k) : r ∈ rs ∨ (f ≤ r.tag ∧ r.tag < f + 2) := by
  rcases merge_tags h with h | h
  · rcases mem_splice_list h with h | h
    · exact Or.inl h
    · rw [List.mem_singleton] at h; subst h; exact Or.inr (by omega)
  · exact Or.inr (by omega)

theorem addRange_tags {f : Nat} {rs : List Rg} {a z : Nat} {r : Rg} (h : r ∈ addRange f rs a z) :
    r ∈ rs ∨ (f ≤ r.tag ∧ r.tag < f + 2) := by
  unfold addRange at h
  simp only [] at h
  repeat' split at h
  all_goals first
    | exact Or.inl h
    | exact merge_splice_tags rfl h
    | (rw [List.mem_singleton] at h; subst h; exact Or.inr ⟨Nat.le_refl _, by simp only; omega⟩)

theorem addChar_tags {f : Nat} {rs : List Rg} {c : Nat} {r : Rg} (h : r ∈ addChar f rs c) :
    r ∈ rs ∨ (f ≤ r.tag ∧ r.tag < f + 2) := by
  unfold addChar at h
  simp only [] at h
  repeat' split at h
  all_goals first
    | exact Or.inl h
    | exact merge_splice_tags rfl h
    | (rw [List.mem_singleton] at h; subst h; exact Or.inr ⟨Nat.le_refl _, by simp only; omega⟩)

theorem addClass_tags {f : Nat} {rs other : List Rg} {r : Rg} (h : r ∈ addClass f rs other) :
    r ∈ rs ∨ r ∈ other ∨ (f ≤ r.tag ∧ r.tag < f + 2 * other.length) := by
  unfold addClass at h
  split at h
  · have key : ∀ (other : List Rg) (g : Nat) (rs : List Rg) (r : Rg),
        r ∈ (other.foldl (fun st r => (addRange st.2 st.1 r.lo r.hi, st.2 + 2)) (rs, g)).1 →
        r ∈ rs ∨ (g ≤ r.tag ∧ r.tag < g + 2 * other.length) := by
      intro other
      induction other with
      | nil => intro g rs r h; exact Or.inl h
      | cons s other ih =>
        intro g rs r h
        rw [List.foldl_cons] at h
        simp only [List.length_cons]
        rcases ih _ _ _ h with h | h
        · rcases addRange_tags h with h | h
          · exact Or.inl h
          · exact Or.inr (by omega)
        · exact Or.inr (by omega)
    rcases key _ _ _ _ h with h | h
    · exact Or.inl h
    · exact Or.inr (Or.inr h)
  · exact Or.inr (Or.inl h)

theorem mem_modifyAt {rs : List Rg} {i : Nat} {g : Rg → Rg} {r : Rg} (hg : ∀ r, (g r).tag = r.tag)
    (h : r ∈ modifyAt rs i g) : ∃ s ∈ rs, s.tag = r.tag := by
  unfold modifyAt at h
  by_cases hi : i < rs.length
  · rcases List.mem_or_eq_of_mem_set h with h | h
    · exact ⟨r, h, rfl⟩
    · rw [getElem!_pos rs i hi] at h
      exact ⟨rs[i], List.getElem_mem hi, by rw [h, hg]⟩
  · rw [List.set_eq_of_length_le (by omega)] at h
    exact ⟨r, h, rfl⟩

/-- Every element of `l` is an old cell (possibly with new contents) or the fresh cell. -/
def OldOrFresh (f : Nat) (rs l : List Rg) : Prop := ∀ r ∈ l, (∃ s ∈ rs, s.tag = r.tag) ∨ r.tag = f

theorem OldOrFresh.self {f : Nat} {rs : List Rg} : OldOrFresh f rs rs := fun r h => Or.inl ⟨r, h, rfl⟩

theorem OldOrFresh.splice_nil {f : Nat} {rs l : List Rg} (h : OldOrFresh f rs l) (i j : Nat) :
    OldOrFresh f rs (splice l i j []) := by
  intro r hr
  rcases mem_splice_list hr with hr | hr
  · exact h r hr
  · cases hr

theorem OldOrFresh.splice_one {f : Nat} {rs l : List Rg} (h : OldOrFresh f rs l) (i j lo hi : Nat) :
    OldOrFresh f rs (splice l i j [⟨lo, hi, f⟩]) := by
  intro r hr
  rcases mem_splice_list hr with hr | hr
  · exact h r hr
  · rw [List.mem_singleton] at hr; subst hr; exact Or.inr rfl

theorem OldOrFresh.modify {f : Nat} {rs l : List Rg} (h : OldOrFresh f rs l) (i : Nat) {g : Rg → Rg}
    (hg : ∀ r, (g r).tag = r.tag) : OldOrFresh f rs (modifyAt l i g) := by
  intro r hr
  obtain ⟨s, hs, he⟩ := mem_modifyAt hg hr
  rw [← he]
  exact h s hs

theorem subtractRange_tags {f : Nat} {rs : List Rg} {a z : Nat} {r : Rg} (h : r ∈ subtractRange f rs a z) :
    (∃ s ∈ rs, s.tag = r.tag) ∨ r.tag = f := by
  have h0 : OldOrFresh f rs (subtractRange f rs a z) := by
    unfold subtractRange
    simp only []
    repeat' split
    all_goals repeat' first
      | exact OldOrFresh.self
      | apply OldOrFresh.splice_nil
      | apply OldOrFresh.splice_one
      | (refine OldOrFresh.modify ?_ _ (fun _ => rfl))
      | dsimp only
  exact h0 r h

theorem subtractChar_tags {f : Nat} {rs : List Rg} {c : Nat} {r : Rg} (h : r ∈ subtractChar f rs c) :
    (∃ s ∈ rs, s.tag = r.tag) ∨ r.tag = f := by
  have h0 : OldOrFresh f rs (subtractChar f rs c) := by
    unfold subtractChar
    simp only []
    repeat' split
    all_goals repeat' first
      | exact OldOrFresh.self
      | apply OldOrFresh.splice_nil
      | apply OldOrFresh.splice_one
      | (refine OldOrFresh.modify ?_ _ (fun _ => rfl))
      | dsimp only
  exact h0 r h

theorem subtractClass_tags {f : Nat} {rs other : List Rg} {r : Rg} (h : r ∈ subtractClass f rs other) :
    (∃ s ∈ rs, s.tag = r.tag) ∨ (f ≤ r.tag ∧ r.tag < f + other.length) := by
  unfold subtractClass at h
  induction other generalizing f rs with
  | nil => exact Or.inl ⟨r, h, rfl⟩
  | cons s other ih =>
    rw [List.foldl_cons] at h
    simp only [List.length_cons]
    rcases ih h with ⟨x, hx, h⟩ | h
    · rcases subtractRange_tags hx with ⟨y, hy, h'⟩ | h'
      · exact Or.inl ⟨y, hy, h'.trans h⟩
      · exact Or.inr (by omega)
    · exact Or.inr (by omega)

/-- Every range list in use has an address below `next`. -/
def Heap.WF (h : Heap) : Prop := ∀ k, ∀ t ∈ h.classes k, t < h.next

theorem load_tag {h : Heap} {k : Nat} {r : Rg} (hr : r ∈ h.load k) :
    r.tag ∈ h.classes k ∧ h.cells r.tag = (r.lo, r.hi) := by
  unfold Heap.load at hr
  rw [List.mem_map] at hr
  obtain ⟨t, ht, rfl⟩ := hr
  exact ⟨ht, rfl⟩

/-- Storing a result made of unchanged cells and fresh cells leaves the other objects alone. -/
theorem store_other {h : Heap} (hw : Heap.WF h) {k j : Nat} (hjk : j ≠ k) {rs : List Rg} {used : Nat}
    (hrs : ∀ r ∈ rs, h.cells r.tag = (r.lo, r.hi) ∨ h.next ≤ r.tag) :
    (h.store k rs used).load j = h.load j := by
  unfold Heap.load Heap.store
  simp only [if_neg hjk]
  apply List.map_congr_left
  intro t ht
  have hlt := hw j t ht
  cases hf : rs.find? (fun r => decide (r.tag = t)) with
  | none => rfl
  | some r =>
    have hmem := List.mem_of_find?_eq_some hf
    have htag : r.tag = t := by simpa using List.find?_some hf
    rcases hrs r hmem with h1 | h1
    · subst htag
      simp [h1]
    · omega

theorem add_step_unchanged {h : Heap} (hw : Heap.WF h) {op : Op} (ha : op.isAdd = true) {j : Nat}
    (hj : j ≠ op.self) : (h.step op).load j = h.load j := by
  cases op with
  | new k => exact store_other hw hj (fun r hr => absurd hr List.not_mem_nil)
  | addChar k c =>
    refine store_other hw hj (fun r hr => ?_)
    rcases addChar_tags hr with h1 | h1
    · exact Or.inl (load_tag h1).2
    · exact Or.inr h1.1
  | addRange k a z =>
    refine store_other hw hj (fun r hr => ?_)
    rcases addRange_tags hr with h1 | h1
    · exact Or.inl (load_tag h1).2
    · exact Or.inr h1.1
  | addClass k o =>
    refine store_other hw hj (fun r hr => ?_)
    rcases addClass_tags hr with h1 | h1 | h1
    · exact Or.inl (load_tag h1).2
    · exact Or.inl (load_tag h1).2
    · exact Or.inr h1.1
  | _ => cases ha

theorem store_wf {h : Heap} (hw : Heap.WF h) {k : Nat} {rs : List Rg} {used : Nat}
    (hrs : ∀ r ∈ rs, r.tag < h.next + used) : Heap.WF (h.store k rs used) := by
  intro j t ht
  unfold Heap.store at ht ⊢
  simp only at ht ⊢
  split at ht
  · rw [List.mem_map] at ht
    obtain ⟨r, hr, rfl⟩ := ht
    exact hrs r hr
  · have := hw j t ht
    omega

theorem step_wf {h : Heap} (hw : Heap.WF h) (op : Op) : Heap.WF (h.step op) := by
  have hl : ∀ {k : Nat} {r : Rg}, r ∈ h.load k → r.tag < h.next := fun hr => hw _ _ (load_tag hr).1
  have hlen : ∀ k, (h.load k).length = (h.classes k).length := fun k => by unfold Heap.load; simp
  cases op with
  | new k => exact store_wf hw (fun r hr => absurd hr List.not_mem_nil)
  | addChar k c =>
    refine store_wf hw (fun r hr => ?_)
    rcases addChar_tags hr with h1 | h1
    · have := hl h1; omega
    · omega
  | addRange k a z =>
    refine store_wf hw (fun r hr => ?_)
    rcases addRange_tags hr with h1 | h1
    · have := hl h1; omega
    · omega
  | addClass k o =>
    refine store_wf hw (fun r hr => ?_)
    rcases addClass_tags hr with h1 | h1 | h1
    · have := hl h1; omega
    · have := hl h1; omega
    · rw [hlen] at h1; omega
  | subtractChar k c =>
    refine store_wf hw (fun r hr => ?_)
    rcases subtractChar_tags hr with ⟨s, h1, h2⟩ | h1
    · have := hl h1; omega
    · omega
  | subtractRange k a z =>
    refine store_wf hw (fun r hr => ?_)
    rcases subtractRange_tags hr with ⟨s, h1, h2⟩ | h1
    · have := hl h1; omega
    · omega
  | subtractClass k o =>
    refine store_wf hw (fun r hr => ?_)
    rcases subtractClass_tags hr with ⟨s, h1, h2⟩ | h1
    · have := hl h1; omega
    · rw [hlen] at h1; omega
  | negate k =>
    refine store_wf hw (fun r hr => ?_)
    unfold negate at hr
    rcases subtractClass_tags hr with ⟨s, h1, h2⟩ | h1
    · rw [List.mem_singleton] at h1; subst h1; simp only at h2; omega
    · rw [hlen] at h1; omega

theorem run_wf (ops : List Op) : ∀ {h : Heap}, Heap.WF h → Heap.WF (ops.foldl Heap.step h) := by
  induction ops with
  | nil => intro h hw; exact hw
  | cons op ops ih => intro h hw; exact ih (step_wf hw op)

/-- **C34, guarded.** After any history, any further sequence of additions to other classes (including copies of
it) leaves what a class answers unchanged.  (What is missing: subtractions, see `copy_not_independent`.) -/
theorem additions_leave_other_classes_partial (ops adds : List Op) (k : Nat)
    (hadd : ∀ op ∈ adds, op.isAdd = true ∧ op.self ≠ k) (c : Nat) :
    answers (adds.foldl Heap.step (ops.foldl Heap.step Heap.empty)) k c
      = answers (ops.foldl Heap.step Heap.empty) k c := by
  have hw : Heap.WF (ops.foldl Heap.step Heap.empty) :=
    run_wf ops (fun j t ht => by simp [Heap.empty] at ht)
  generalize ops.foldl Heap.step Heap.empty = h at hw
  induction adds generalizing h with
  | nil => rfl
  | cons op adds ih =>
    rw [List.foldl_cons, ih (fun o ho => hadd o (List.mem_cons_of_mem _ ho)) _ (step_wf hw op)]
    unfold answers
    have := hadd op (by simp)
    rw [add_step_unchanged hw this.1 (Ne.symm this.2)]

example : answers ([Op.new 1, .addClass 1 0, .addChar 1 48, .addRange 1 100 200].foldl Heap.step
    ([Op.new 0, .addRange 0 97 122, .subtractChar 0 110].foldl Heap.step Heap.empty)) 0 110 = false := by
  decide +kernel

end Verif.Props
