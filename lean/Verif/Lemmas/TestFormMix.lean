import Verif.Lemmas.TestForm

/-!
# Lemmas on the ordering of test forms
-/

set_option linter.unusedVariables false

namespace Verif.TestForm

open Verif Verif.Spec.TestForm

/-! ## Shuffling -/

theorem swap_perm (l : List Str) (i j : Nat) : (swap l i j).Perm l := by
  unfold swap
  cases hi : l[i]? with
  | none => exact List.Perm.refl _
  | some a =>
    cases hj : l[j]? with
    | none => exact List.Perm.refl _
    | some b =>
      obtain ⟨h1, e1⟩ := List.getElem?_eq_some_iff.1 hi
      obtain ⟨h2, e2⟩ := List.getElem?_eq_some_iff.1 hj
      subst e1; subst e2
      exact List.set_set_perm h1 h2

theorem shuffleFrom_perm : ∀ (n : Nat) (l : List Str) (r : Rng), (shuffleFrom n l r).1.Perm l
  | 0, l, r => List.Perm.refl _
  | n + 1, l, r => (shuffleFrom_perm n _ _).trans (swap_perm _ _ _)

theorem shuffleList_perm (l : List Str) (r : Rng) : (shuffleList l r).1.Perm l := shuffleFrom_perm _ l r

/-! ## Slots and buckets -/

/-- What `place` puts in the place of a child: the child itself, or a free slot. -/
abbrev Cell := Option (List Str)

/-- The slots for some cells. -/
def slotsOf : List Cell → Slots
  | [] => []
  | none :: cs => none :: slotsOf cs
  | some w :: cs => w.map some ++ slotsOf cs

/-- How many slots are free. -/
def holes : List Cell → Nat
  | [] => 0
  | none :: cs => holes cs + 1
  | some _ :: cs => holes cs

/-- The blocks that come from cells and buckets. -/
def fill : List Cell → List (List Str) → List (List (List Str))
  | [], _ => []
  | none :: cs, b :: bs => b.map ([·]) :: fill cs bs
  | none :: cs, [] => [] :: fill cs []
  | some w :: cs, bs => [w] :: fill cs bs

theorem deal_some (w : List Str) (s : Slots) (l : List Str) : deal (w.map some ++ s) l = deal s l := by
  induction w with
  | nil => rfl
  | cons a w ih => exact ih

theorem deal_spec : ∀ (cs : List Cell) (l : List Str) (bs : List (List Str)) (rest : List Str),
    deal (slotsOf cs) l = .ok (bs, rest) → bs.length = holes cs ∧ (∀ b ∈ bs, b ≠ []) ∧ bs.flatten ++ rest = l
  | [], l, bs, rest, h => by
    injection h with h; injection h with h1 h2; subst h1; subst h2
    exact ⟨rfl, by simp, rfl⟩
  | some w :: cs, l, bs, rest, h => by
    rw [slotsOf, deal_some] at h
    exact deal_spec cs l bs rest h
  | none :: cs, [], bs, rest, h => by cases h
  | none :: cs, a :: l, bs, rest, h => by
    rw [slotsOf, deal] at h
    cases hd : deal (slotsOf cs) l with
    | error e => simp only [hd] at h; cases h
    | ok x =>
      obtain ⟨bs0, rest0⟩ := x
      simp only [hd] at h
      injection h with h; injection h with h1 h2; subst h1; subst h2
      obtain ⟨h1, h2, h3⟩ := deal_spec cs l bs0 rest0 hd
      refine ⟨by simp [holes, h1], ?_, by simp [h3]⟩
      intro b hb
      rcases List.mem_cons.1 hb with rfl | hb
      · simp
      · exact h2 b hb

theorem deal_ok : ∀ (cs : List Cell) (l : List Str), holes cs ≤ l.length → ∃ x, deal (slotsOf cs) l = .ok x
  | [], l, _ => ⟨_, rfl⟩
  | some w :: cs, l, h => by
    rw [slotsOf, deal_some]
    exact deal_ok cs l h
  | none :: cs, [], h => by simp [holes] at h
  | none :: cs, a :: l, h => by
    obtain ⟨⟨bs, rest⟩, hx⟩ := deal_ok cs l (by simpa [holes] using h)
    rw [slotsOf, deal, hx]
    exact ⟨_, rfl⟩

theorem set_flatten_perm (a : Str) : ∀ (bs : List (List Str)) (i : Nat) (b : List Str), bs[i]? = some b →
    (bs.set i (b ++ [a])).flatten.Perm (a :: bs.flatten)
  | [], i, b, h => by simp at h
  | b0 :: bs, 0, b, h => by
    simp at h; subst h
    simp only [List.set_cons_zero, List.flatten_cons, List.append_assoc, List.singleton_append]
    exact List.perm_middle
  | b0 :: bs, i + 1, b, h => by
    have := set_flatten_perm a bs i b (by simpa using h)
    simp only [List.set_cons_succ, List.flatten_cons]
    exact (List.Perm.append_left b0 this).trans List.perm_middle

theorem scatter_spec : ∀ (l : List Str) (bs : List (List Str)) (r : Rng) (bs' : List (List Str)) (r' : Rng),
    scatter l bs r = .ok (bs', r') → (∀ b ∈ bs, b ≠ []) →
    bs'.length = bs.length ∧ (∀ b ∈ bs', b ≠ []) ∧ bs'.flatten.Perm (bs.flatten ++ l)
  | [], bs, r, bs', r', h, hb => by
    injection h with h; injection h with h1 h2; subst h1
    exact ⟨rfl, hb, by simp⟩
  | a :: l, bs, r, bs', r', h, hb => by
    unfold scatter at h
    cases hx : bs[(draw r bs.length).1]? with
    | none => simp only [hx] at h; cases h
    | some b =>
      simp only [hx] at h
      obtain ⟨h1, h2, h3⟩ := scatter_spec l _ _ bs' r' h (by
        intro c hc
        rcases List.mem_or_eq_of_mem_set hc with hc | rfl
        · exact hb c hc
        · simp)
      refine ⟨by simpa using h1, h2, h3.trans ?_⟩
      refine ((set_flatten_perm a bs _ b hx).append_right l).trans ?_
      simpa using (List.perm_middle (a := a) (l₁ := bs.flatten) (l₂ := l)).symm

theorem scatter_ok : ∀ (l : List Str) (bs : List (List Str)) (r : Rng), bs ≠ [] → ∃ x, scatter l bs r = .ok x
  | [], bs, r, _ => ⟨_, rfl⟩
  | a :: l, bs, r, h => by
    have hpos : 0 < bs.length := List.length_pos_iff.2 h
    have hlt : (draw r bs.length).1 < bs.length := Nat.mod_lt _ hpos
    unfold scatter
    rw [List.getElem?_eq_getElem hlt]
    simp only
    refine scatter_ok l _ _ ?_
    intro e
    have := congrArg List.length e
    simp at this
    exact h this

/-- The part of that name is an item. -/
def IsItem (get : Str → Option Part) (g : Str) : Prop := ∃ p, get g = some p ∧ p.isSect = false

theorem expandBucket_spec (get : Str → Option Part) : ∀ (l l' : List Str), expandBucket get l = .ok l' →
    l' = l ∧ ∀ g ∈ l, IsItem get g
  | [], l', h => by injection h with h; subst h; simp
  | a :: l, l', h => by
    unfold expandBucket at h
    cases hg : get a with
    | none => simp only [hg] at h; cases h
    | some p =>
      simp only [hg] at h
      split at h
      · cases h
      · rename_i hs
        cases he : expandBucket get l with
        | error e => simp only [he] at h; cases h
        | ok l0 =>
          simp only [he] at h
          injection h with h; subst h
          obtain ⟨h1, h2⟩ := expandBucket_spec get l l0 he
          refine ⟨by rw [h1], ?_⟩
          intro g hm
          rcases List.mem_cons.1 hm with rfl | hm
          · exact ⟨p, hg, by simpa using hs⟩
          · exact h2 g hm

theorem expandBucket_ok (get : Str → Option Part) : ∀ (l : List Str), (∀ g ∈ l, IsItem get g) →
    expandBucket get l = .ok l
  | [], _ => rfl
  | a :: l, h => by
    obtain ⟨p, hg, hs⟩ := h a (by simp)
    unfold expandBucket
    simp only [hg, hs]
    rw [expandBucket_ok get l fun g hm => h g (by simp [hm])]
    rfl

theorem splice_some (b w : List Str) (s : Slots) : splice b (w.map some ++ s) = w.map some ++ splice b s := by
  induction w with
  | nil => rfl
  | cons a w ih => simp [splice, ih]

theorem spliceAll_skip (get : Str → Option Part) : ∀ (bs : List (List Str)) (w : List Str) (s : Slots),
    spliceAll get bs (w.map some ++ s) = (spliceAll get bs s).map (w.map some ++ ·)
  | [], w, s => rfl
  | b :: bs, w, s => by
    unfold spliceAll
    cases expandBucket get b with
    | error e => rfl
    | ok b' => simp only [splice_some]; exact spliceAll_skip get bs w _

theorem spliceAll_spec (get : Str → Option Part) : ∀ (cs : List Cell) (bs : List (List Str)) (s : Slots),
    bs.length = holes cs → spliceAll get bs (slotsOf cs) = .ok s →
    s = (fill cs bs).flatten.flatten.map some ∧ ∀ g ∈ bs.flatten, IsItem get g
  | [], bs, s, hl, h => by
    have : bs = [] := List.length_eq_zero_iff.1 (by simpa [holes] using hl)
    subst this
    injection h with h; subst h
    simp [slotsOf, fill]
  | some w :: cs, bs, s, hl, h => by
    rw [slotsOf, spliceAll_skip] at h
    cases hs : spliceAll get bs (slotsOf cs) with
    | error e => simp [hs, Except.map] at h
    | ok s0 =>
      simp only [hs, Except.map] at h
      injection h with h; subst h
      obtain ⟨h1, h2⟩ := spliceAll_spec get cs bs s0 hl hs
      refine ⟨?_, h2⟩
      rw [h1]; simp [fill]
  | none :: cs, [], s, hl, h => by simp [holes] at hl
  | none :: cs, b :: bs, s, hl, h => by
    rw [slotsOf, spliceAll] at h
    cases he : expandBucket get b with
    | error e => simp only [he] at h; cases h
    | ok b' =>
      simp only [he, splice] at h
      obtain ⟨h3, h4⟩ := expandBucket_spec get b b' he
      subst h3
      rw [spliceAll_skip] at h
      cases hs : spliceAll get bs (slotsOf cs) with
      | error e => simp [hs, Except.map] at h
      | ok s0 =>
        simp only [hs, Except.map] at h
        injection h with h; subst h
        obtain ⟨h1, h2⟩ := spliceAll_spec get cs bs s0 (by simpa [holes] using hl) hs
        constructor
        · rw [h1]
          have : (b'.map ([·])).flatten = b' := by
            clear he h4 hl
            induction b' with
            | nil => rfl
            | cons a l ih => simp [ih]
          simp [fill, this]
        · intro g hm
          simp only [List.flatten_cons, List.mem_append] at hm
          rcases hm with hm | hm
          · exact h4 g hm
          · exact h2 g hm

theorem spliceAll_ok (get : Str → Option Part) : ∀ (bs : List (List Str)) (s : Slots),
    (∀ g ∈ bs.flatten, IsItem get g) → ∃ x, spliceAll get bs s = .ok x
  | [], s, _ => ⟨_, rfl⟩
  | b :: bs, s, h => by
    unfold spliceAll
    rw [expandBucket_ok get b fun g hm => h g (by simp [hm])]
    exact spliceAll_ok get bs _ fun g hm => h g (by
      rw [List.flatten_cons, List.mem_append]; exact .inr hm)

/-- Step 5: if there are no more free slots than entries, the entries fill the slots, at least one in each. -/
theorem mixUp_spec {get : Str → Option Part} {cs : List Cell} {pool : List Str} {r r' : Rng} {s : Slots}
    (h : mixUp get (slotsOf cs) pool r = .ok (s, r')) (hh : holes cs ≤ pool.length) :
    ∃ bs, bs.length = holes cs ∧ (∀ b ∈ bs, b ≠ []) ∧ bs.flatten.Perm pool ∧
      s = (fill cs bs).flatten.flatten.map some := by
  unfold mixUp at h
  split at h
  · rename_i he
    have he : pool = [] := by simpa using he
    subst he
    injection h with h; injection h with h1 h2; subst h1
    have h0 : holes cs = 0 := by simpa using hh
    obtain ⟨x, hx⟩ := spliceAll_ok get [] (slotsOf cs) (by simp)
    refine ⟨[], h0.symm, by simp, by simp, ?_⟩
    exact (spliceAll_spec get cs [] _ h0.symm rfl).1
  · cases hd : deal (slotsOf cs) (shuffleList pool r).1 with
    | error e => simp only [hd] at h; cases h
    | ok x =>
      obtain ⟨bs, rest⟩ := x
      simp only [hd] at h
      cases hsc : scatter rest bs (shuffleList pool r).2 with
      | error e => simp only [hsc] at h; cases h
      | ok x =>
        obtain ⟨bs', r1⟩ := x
        simp only [hsc] at h
        cases hsp : spliceAll get bs' (slotsOf cs) with
        | error e => simp only [hsp] at h; cases h
        | ok s0 =>
          simp only [hsp] at h
          injection h with h; injection h with h1 h2; subst h1
          obtain ⟨d1, d2, d3⟩ := deal_spec cs _ _ _ hd
          obtain ⟨e1, e2, e3⟩ := scatter_spec _ _ _ _ _ hsc d2
          refine ⟨bs', e1.trans d1, e2, ?_, (spliceAll_spec get cs bs' _ (e1.trans d1) hsp).1⟩
          rw [d3] at e3
          exact e3.trans (shuffleList_perm pool r)

/-- Step 5 mixes items only. -/
theorem mixUp_items {get : Str → Option Part} {cs : List Cell} {pool : List Str} {r r' : Rng} {s : Slots}
    (h : mixUp get (slotsOf cs) pool r = .ok (s, r')) : ∀ g ∈ pool, IsItem get g := by
  unfold mixUp at h
  split at h
  · rename_i he
    have he : pool = [] := by simpa using he
    subst he; simp
  · cases hd : deal (slotsOf cs) (shuffleList pool r).1 with
    | error e => simp only [hd] at h; cases h
    | ok x =>
      obtain ⟨bs, rest⟩ := x
      simp only [hd] at h
      cases hsc : scatter rest bs (shuffleList pool r).2 with
      | error e => simp only [hsc] at h; cases h
      | ok x =>
        obtain ⟨bs', r1⟩ := x
        simp only [hsc] at h
        cases hsp : spliceAll get bs' (slotsOf cs) with
        | error e => simp only [hsp] at h; cases h
        | ok s0 =>
          obtain ⟨d1, d2, d3⟩ := deal_spec cs _ _ _ hd
          obtain ⟨e1, e2, e3⟩ := scatter_spec _ _ _ _ _ hsc d2
          rw [d3] at e3
          intro g hg
          exact (spliceAll_spec get cs bs' _ (e1.trans d1) hsp).2 g
            ((e3.trans (shuffleList_perm pool r)).mem_iff.2 hg)

theorem splice_keeps (b : List Str) (g : Str) : ∀ s : Slots, some g ∈ s → some g ∈ splice b s
  | none :: s, h => by
    simp at h
    simp [splice, h]
  | some a :: s, h => by
    rw [splice]
    rcases List.mem_cons.1 h with h | h
    · rw [h]; simp
    · exact List.mem_cons_of_mem _ (splice_keeps b g s h)

theorem spliceAll_keeps (get : Str → Option Part) (g : Str) : ∀ (bs : List (List Str)) (s s' : Slots),
    spliceAll get bs s = .ok s' → some g ∈ s → some g ∈ s'
  | [], s, s', h, hg => by injection h with h; rw [← h]; exact hg
  | b :: bs, s, s', h, hg => by
    unfold spliceAll at h
    cases he : expandBucket get b with
    | error e => simp only [he] at h; cases h
    | ok b' => simp only [he] at h; exact spliceAll_keeps get g bs _ _ h (splice_keeps b' g s hg)

/-- Step 5 leaves the rest where it is. -/
theorem mixUp_keeps {get : Str → Option Part} {slots : Slots} {pool : List Str} {r r' : Rng} {s : Slots} {g : Str}
    (h : mixUp get slots pool r = .ok (s, r')) (hg : some g ∈ slots) : some g ∈ s := by
  unfold mixUp at h
  split at h
  · injection h with h; injection h with h1 h2; rw [← h1]; exact hg
  · cases hd : deal slots (shuffleList pool r).1 with
    | error e => simp only [hd] at h; cases h
    | ok x =>
      obtain ⟨bs, rest⟩ := x
      simp only [hd] at h
      cases hsc : scatter rest bs (shuffleList pool r).2 with
      | error e => simp only [hsc] at h; cases h
      | ok x =>
        obtain ⟨bs', r1⟩ := x
        simp only [hsc] at h
        cases hsp : spliceAll get bs' slots with
        | error e => simp only [hsp] at h; cases h
        | ok s0 =>
          simp only [hsp] at h
          injection h with h; injection h with h1 h2; rw [← h1]
          exact spliceAll_keeps get g bs' _ _ hsp hg

/-- Step 5 succeeds when only items are mixed and there are entries enough. -/
theorem mixUp_ok {get : Str → Option Part} {cs : List Cell} {pool : List Str} (r : Rng)
    (hh : holes cs ≤ pool.length) (hz : holes cs = 0 → pool = []) (hi : ∀ g ∈ pool, IsItem get g) :
    ∃ x, mixUp get (slotsOf cs) pool r = .ok x := by
  unfold mixUp
  split
  · exact ⟨_, rfl⟩
  · rename_i he
    have he : pool ≠ [] := by simpa using he
    have hp := shuffleList_perm pool r
    obtain ⟨⟨bs, rest⟩, hd⟩ := deal_ok cs (shuffleList pool r).1 (by rw [hp.length_eq]; exact hh)
    obtain ⟨d1, d2, d3⟩ := deal_spec cs _ _ _ hd
    have hbs : bs ≠ [] := by
      intro e; subst e
      exact he (hz d1.symm)
    obtain ⟨⟨bs', r1⟩, hsc⟩ := scatter_ok rest bs (shuffleList pool r).2 hbs
    obtain ⟨e1, e2, e3⟩ := scatter_spec _ _ _ _ _ hsc d2
    rw [d3] at e3
    obtain ⟨s0, hsp⟩ := spliceAll_ok get bs' (slotsOf cs) fun g hg => hi g ((e3.trans hp).mem_iff.1 hg)
    simp only [hd, hsc, hsp]
    exact ⟨_, rfl⟩

end Verif.TestForm
