import Verif.Props.HttpMedia

/-!
# Content negotiation

C132: the media type that is selected is the first of the best, by the most specific range that applies to each.
-/

set_option linter.unusedVariables false
set_option linter.unusedSimpArgs false

namespace Verif.Props

open Verif Verif.Http

/-! ## The specification -/

/-- The first of the best: with a quality greater than 0, greater than of all before it, and not less than of all after
it.  There is none only if all qualities are 0. -/
def IsBest {α : Type} (q : α → Nat) (l : List α) : Option α → Prop
  | none => ∀ x ∈ l, q x = 0
  | some x => ∃ l1 l2, l = l1 ++ x :: l2 ∧ 0 < q x ∧ (∀ y ∈ l1, q y < q x) ∧ ∀ y ∈ l2, q y ≤ q x

/-- A media range applies to a media type: type and subtype are wildcards or the same without regard to case, and each
parameter of the range is one of the media type. -/
def Applies (r m : MediaType) : Prop :=
  (r.type = ['*'] ∨ Py.lower r.type = Py.lower m.type) ∧
  (r.subtype = ['*'] ∨ Py.lower r.subtype = Py.lower m.subtype) ∧
  ∀ p ∈ r.params, m.params.get p.key = some p.value

/-- How specific a media range is: `*/*`, `type/*`, `type/subtype`, and then by the number of parameters. -/
def level (r : MediaType) : Nat :=
  if r.type = ['*'] then 0 else if r.subtype = ['*'] then 1 else 2 + r.params.length

/-- The parameters as text, in the order of their keys. -/
def paramText (r : MediaType) : List (List Str) := r.params.map fun p => [p.key, p.name, p.value]

/-- The item of an Accept header that decides about a media type: the most specific that applies, the first by the
alphabet if there are more, with the greatest quality if that is repeated. -/
def Decides (items : List AcceptItem) (m : MediaType) (i : AcceptItem) : Prop :=
  i ∈ items ∧ Applies i.range m ∧
  ∀ j ∈ items, Applies j.range m →
    level j.range < level i.range ∨ level j.range = level i.range ∧
      (compare (paramText i.range) (paramText j.range) = .lt ∨ paramText i.range = paramText j.range ∧ j.q ≤ i.q)

/-- The quality of a media type: that of the item that decides, or 0 if no item applies. -/
def IsQuality (items : List AcceptItem) (m : MediaType) (q : Nat) : Prop :=
  (∃ i, Decides items m i ∧ i.q = q) ∨ (∀ i ∈ items, ¬ Applies i.range m) ∧ q = 0

/-- A media range of the grammar of RFC 2616, with no parameters after a wildcard. -/
def RangeOk (r : MediaType) : Prop :=
  (r.type = ['*'] → r.subtype = ['*'] ∧ r.params = []) ∧ (r.subtype = ['*'] → r.params = [])

/-! ## Selections -/

theorem fold_best {α : Type} (q : α → Nat) (l : List α) (done : List α) (best : Option α × Nat)
    (h : IsBest q done best.1 ∧ best.2 = match best.1 with | none => 0 | some x => q x) :
    IsBest q (done ++ l) (l.foldl (fun b x => better b x (q x)) best).1 := by
  induction l generalizing done best with
  | nil => rw [List.append_nil]; exact h.1
  | cons x l ih =>
    have e : done ++ x :: l = (done ++ [x]) ++ l := by simp
    rw [e, List.foldl_cons]
    refine ih _ _ ?_
    obtain ⟨b, bq⟩ := best
    unfold better
    dsimp only at h ⊢
    by_cases hx : q x > bq
    · rw [if_pos hx]
      refine ⟨⟨done, [], rfl, by omega, ?_, by simp⟩, rfl⟩
      intro y hy
      cases b with
      | none => have h1 := h.1 y hy; dsimp only at h ⊢; omega
      | some z =>
        obtain ⟨⟨l1, l2, e, h0, h1, h2⟩, hb⟩ := h
        dsimp only at hb
        subst e
        rcases List.mem_append.mp hy with hy | hy
        · have := h1 y hy; omega
        · rcases List.mem_cons.mp hy with rfl | hy
          · omega
          · have := h2 y hy; omega
    · rw [if_neg hx]
      refine ⟨?_, h.2⟩
      cases b with
      | none =>
        intro y hy
        rcases List.mem_append.mp hy with hy | hy
        · exact h.1 y hy
        · rw [List.mem_singleton] at hy; subst hy; dsimp only at h; omega
      | some z =>
        obtain ⟨⟨l1, l2, e, h0, h1, h2⟩, hb⟩ := h
        dsimp only at hb
        refine ⟨l1, l2 ++ [x], by rw [e]; simp, h0, h1, ?_⟩
        intro y hy
        rcases List.mem_append.mp hy with hy | hy
        · exact h2 y hy
        · rw [List.mem_singleton] at hy; subst hy; omega

/-- A selection returns the first of the best. -/
theorem select_best {α : Type} (q : α → Nat) (l : List α) :
    IsBest q l (l.foldl (fun b x => better b x (q x)) (none, 0)).1 :=
  fold_best q l [] (none, 0) ⟨fun x hx => (List.not_mem_nil hx).elim, rfl⟩

/-- There is one first of the best. -/
theorem isBest_unique {α : Type} {q : α → Nat} {l : List α} {a b : Option α} (ha : IsBest q l a) (hb : IsBest q l b) :
    a = b := by
  have one : ∀ {x : α}, IsBest q l (some x) → IsBest q l none → False := by
    rintro x ⟨l1, l2, e, h0, _⟩ h
    have := h x (by rw [e]; simp)
    omega
  cases a with
  | none => cases b with
    | none => rfl
    | some y => exact (one hb ha).elim
  | some x => cases b with
    | none => exact (one ha hb).elim
    | some y =>
      obtain ⟨l1, l2, e, h0, h1, h2⟩ := ha
      obtain ⟨k1, k2, e', h0', h1', h2'⟩ := hb
      have : l1 ++ x :: l2 = k1 ++ y :: k2 := e.symm.trans e'
      rcases List.append_eq_append_iff.mp this with ⟨c, hc1, hc2⟩ | ⟨c, hc1, hc2⟩
      · cases c with
        | nil => simp at hc2; rw [hc2.1]
        | cons d c =>
          exfalso
          injection hc2 with hd hc2
          subst hd
          have hx : x ∈ k1 := by rw [hc1]; simp
          have hy : y ∈ l2 := by rw [hc2]; simp
          have := h1' x hx; have := h2 y hy; omega
      · cases c with
        | nil => simp at hc2; rw [hc2.1]
        | cons d c =>
          exfalso
          injection hc2 with hd hc2
          subst hd
          have hy : y ∈ l1 := by rw [hc1]; simp
          have hx : x ∈ k2 := by rw [hc2]; simp
          have := h1 y hy; have := h2' x hx; omega

/-- In a sorted list the first match is least. -/
theorem find_least {α : Type} {le : α → α → Bool} {p : α → Bool} {l : List α}
    (hr : ∀ a, le a a = true) (hl : l.Pairwise fun a b => le a b = true) {i : α} (hi : l.find? p = some i) :
    i ∈ l ∧ p i = true ∧ ∀ j ∈ l, p j = true → le i j = true := by
  induction l with
  | nil => cases hi
  | cons x l ih =>
    have hx := List.pairwise_cons.mp hl
    rw [List.find?_cons] at hi
    split at hi
    · rename_i hp
      injection hi with hi
      subst hi
      refine ⟨by simp, hp, ?_⟩
      intro j hj _
      rcases List.mem_cons.mp hj with rfl | hj
      · exact hr _
      · exact hx.1 j hj
    · rename_i hp
      obtain ⟨h1, h2, h3⟩ := ih hx.2 hi
      refine ⟨by simp [h1], h2, ?_⟩
      intro j hj hpj
      rcases List.mem_cons.mp hj with rfl | hj
      · rw [hpj] at hp; cases hp
      · exact h3 j hj hpj

/-- The first match in items sorted by `cmp` is least of all items that match. -/
theorem find_sorted {α : Type} {cmp : α → α → Ordering} [Std.TransCmp cmp] {p : α → Bool} {items : List α} :
    match (Paging.stableSort (fun a b => (cmp a b).isLE) items).find? p with
    | none => ∀ i ∈ items, p i = false
    | some i => i ∈ items ∧ p i = true ∧ ∀ j ∈ items, p j = true → (cmp i j).isLE = true := by
  have hperm := Paging.stableSort_perm (le := fun a b => (cmp a b).isLE) items
  split
  · rename_i h
    rw [List.find?_eq_none] at h
    intro i hi
    have := h i (hperm.mem_iff.mpr hi)
    simpa using this
  · rename_i i h
    have := find_least (le := fun a b => (cmp a b).isLE) (fun a => by rw [Std.ReflCmp.compare_self (cmp := cmp)]; rfl)
      (Paging.stableSort_sorted comparison_of_trans items) h
    exact ⟨hperm.mem_iff.mp this.1, this.2.1, fun j hj => this.2.2 j (hperm.mem_iff.mpr hj)⟩

/-! ## Media ranges -/

theorem compare_params (a b : Params) :
    List.compareLex cmpParam a b = compare (a.map fun p => [p.key, p.name, p.value]) (b.map fun p => [p.key, p.name, p.value]) := by
  induction a generalizing b with
  | nil => cases b <;> rfl
  | cons x a ih =>
    cases b with
    | nil => rfl
    | cons y b =>
      have h1 : ∀ {α : Type} (c : α → α → Ordering) (x y : α) (s t : List α),
          List.compareLex c (x :: s) (y :: t) = (c x y).then (List.compareLex c s t) := by
        intro α c x y s t
        rw [List.compareLex_cons_cons]
      have h2 : cmpParam x y = compare [x.key, x.name, x.value] [y.key, y.name, y.value] := by
        show _ = List.compareLex compare _ _
        rw [h1, h1, h1]
        show (compare x.key y.key).then ((compare x.name y.name).then (compare x.value y.value)) = _
        cases compare x.value y.value <;> rfl
      show _ = List.compareLex compare _ _
      rw [h1, List.map_cons, List.map_cons, h1, h2]
      congr 1
      exact ih b

theorem matches_iff {r : MediaType} (h : RangeOk r) (m : MediaType) : rangeMatches r m = true ↔ Applies r m := by
  unfold rangeMatches Applies
  by_cases h1 : r.type = ['*']
  · rw [if_pos h1]
    obtain ⟨h2, h3⟩ := h.1 h1
    simp [h1, h2, h3]
  · rw [if_neg h1]
    by_cases h2 : Py.lower r.type = Py.lower m.type
    · rw [if_neg (by simpa using h2)]
      by_cases h3 : r.subtype = ['*']
      · rw [if_pos h3]
        simp [h2, h3, h.2 h3]
      · rw [if_neg h3]
        by_cases h4 : Py.lower r.subtype = Py.lower m.subtype
        · rw [if_neg (by simpa using h4), List.all_eq_true]
          simp [h2, h4]
        · rw [if_pos (by simpa using h4)]
          simp [h3, h4]
    · rw [if_pos (by simpa using h2)]
      simp [h1, h2]

/-- Of two ranges that apply to the same media type, the comparison is by how specific they are and then by their
parameters. -/
theorem cmpRange_applies {a b m : MediaType} (ha : RangeOk a) (hb : RangeOk b) (h1 : Applies a m) (h2 : Applies b m) :
    cmpRange a b = (compare (level b) (level a)).then (compare (paramText a) (paramText b)) := by
  unfold cmpRange
  rw [compareTypes_eq, compareTypes_eq, compare_params]
  show _ = (compare (level b) (level a)).then (compare (a.params.map _) (b.params.map _))
  unfold level starNum
  obtain ⟨a1, a2, a3⟩ := h1
  obtain ⟨b1, b2, b3⟩ := h2
  have self : ∀ s : Str, compare s s = Ordering.eq := fun s => Std.ReflCmp.compare_self (cmp := compare)
  by_cases sa : a.type = ['*']
  · obtain ⟨ha2, ha3⟩ := ha.1 sa
    by_cases sb : b.type = ['*']
    · obtain ⟨hb2, hb3⟩ := hb.1 sb
      rw [sa, sb, ha2, hb2, ha3, hb3]
      rfl
    · simp only [if_pos sa, if_neg sb]
      by_cases tb : b.subtype = ['*']
      · simp only [if_pos tb]; rfl
      · simp only [if_neg tb]
        have : compare (2 + b.params.length) 0 = .gt := by rw [Nat.compare_eq_gt]; omega
        rw [this]; rfl
  · by_cases sb : b.type = ['*']
    · simp only [if_neg sa, if_pos sb]
      by_cases ta : a.subtype = ['*']
      · simp only [if_pos ta]; rfl
      · simp only [if_neg ta]
        have : compare 0 (2 + a.params.length) = .lt := by rw [Nat.compare_eq_lt]; omega
        rw [this]; rfl
    · simp only [if_neg sa, if_neg sb]
      have hab : Py.lower a.type = Py.lower b.type := (a1.resolve_left sa).trans (b1.resolve_left sb).symm
      rw [hab, self]
      by_cases ta : a.subtype = ['*']
      · have ha3 := ha.2 ta
        by_cases tb : b.subtype = ['*']
        · rw [ta, tb, ha3, hb.2 tb]; rfl
        · simp only [if_pos ta, if_neg tb]
          have : compare (2 + b.params.length) 1 = .gt := by rw [Nat.compare_eq_gt]; omega
          rw [this]; rfl
      · by_cases tb : b.subtype = ['*']
        · simp only [if_neg ta, if_pos tb]
          have : compare 1 (2 + a.params.length) = .lt := by rw [Nat.compare_eq_lt]; omega
          rw [this]; rfl
        · simp only [if_neg ta, if_neg tb]
          have : Py.lower a.subtype = Py.lower b.subtype := (a2.resolve_left ta).trans (b2.resolve_left tb).symm
          rw [this, self]
          have : compare (2 + b.params.length) (2 + a.params.length) = compare b.params.length a.params.length := by
            rcases Nat.lt_trichotomy b.params.length a.params.length with h | h | h
            · rw [Nat.compare_eq_lt.mpr h, Nat.compare_eq_lt]; omega
            · rw [Nat.compare_eq_eq.mpr h, Nat.compare_eq_eq]; omega
            · rw [Nat.compare_eq_gt.mpr h, Nat.compare_eq_gt]; omega
          rw [this]; rfl

theorem decides_of_least {items : List AcceptItem} (hok : ∀ i ∈ items, RangeOk i.range) {m : MediaType} {i : AcceptItem}
    (hi : i ∈ items) (hm : Applies i.range m)
    (h : ∀ j ∈ items, Applies j.range m → (cmpItem i j).isLE = true) : Decides items m i := by
  refine ⟨hi, hm, fun j hj hjm => ?_⟩
  have := h j hj hjm
  unfold cmpItem at this
  rw [cmpRange_applies (hok i hi) (hok j hj) hm hjm] at this
  rcases Nat.lt_trichotomy (level j.range) (level i.range) with hl | hl | hl
  · exact .inl hl
  · refine .inr ⟨hl, ?_⟩
    rw [Nat.compare_eq_eq.mpr hl] at this
    change ((compare (paramText i.range) (paramText j.range)).then (compare j.q i.q)).isLE = true at this
    cases hc : compare (paramText i.range) (paramText j.range) with
    | lt => exact .inl rfl
    | eq =>
      rw [hc] at this
      refine .inr ⟨Std.LawfulEqCmp.eq_of_compare (cmp := compare) hc, ?_⟩
      exact Nat.isLE_compare.mp this
    | gt => rw [hc] at this; cases this
  · rw [Nat.compare_eq_gt.mpr hl] at this
    cases this

/-- The quality of the first item of the sorted list that matches. -/
def firstQuality (items : List AcceptItem) (m : MediaType) : Nat :=
  match items.find? fun i => rangeMatches i.range m with
  | some i => i.q
  | none => 0

theorem selectType_eq (items : List AcceptItem) (types : List MediaType) :
    selectType items types = (types.foldl (fun b x => better b x (firstQuality items x)) (none, 0)).1 := by
  unfold selectType
  congr 2
  funext b x
  unfold firstQuality
  cases items.find? fun i => rangeMatches i.range x with
  | none => unfold better; dsimp only; rw [if_neg (by omega)]
  | some i => rfl

theorem firstQuality_is {items : List AcceptItem} (hok : ∀ i ∈ items, RangeOk i.range) (m : MediaType) :
    IsQuality items m (firstQuality (acceptList items) m) := by
  have := find_sorted (cmp := cmpItem) (p := fun i => rangeMatches i.range m) (items := items)
  unfold firstQuality acceptList
  split at this
  · rename_i h
    rw [h]
    refine .inr ⟨fun i hi ha => ?_, rfl⟩
    have := this i hi
    rw [(matches_iff (hok i hi) m).mpr ha] at this
    cases this
  · rename_i i h
    rw [h]
    obtain ⟨h1, h2, h3⟩ := this
    exact .inl ⟨i, decides_of_least hok h1 ((matches_iff (hok i h1) m).mp h2)
      (fun j hj hjm => h3 j hj ((matches_iff (hok j hj) m).mpr hjm)), rfl⟩

/-- The specification gives each media type one quality. -/
theorem quality_unique {items : List AcceptItem} {m : MediaType} {a b : Nat} (ha : IsQuality items m a)
    (hb : IsQuality items m b) : a = b := by
  rcases ha with ⟨i, hi, rfl⟩ | ⟨h1, rfl⟩
  · rcases hb with ⟨j, hj, rfl⟩ | ⟨h2, rfl⟩
    · have h1 := hi.2.2 j hj.1 hj.2.1
      have h2 := hj.2.2 i hi.1 hi.2.1
      rcases h1 with h1 | ⟨e, h1⟩
      · rcases h2 with h2 | ⟨e2, _⟩ <;> omega
      · rcases h2 with h2 | ⟨e2, h2⟩
        · omega
        · have sw := Std.OrientedCmp.eq_swap (cmp := compare) (a := paramText i.range) (b := paramText j.range)
          have self := Std.ReflCmp.compare_self (cmp := compare) (a := paramText i.range)
          rcases h1 with h1 | ⟨e1, h1⟩
          · rcases h2 with h2 | ⟨e2, h2⟩
            · rw [h1, h2] at sw; cases sw
            · rw [e2, self] at h1; cases h1
          · rcases h2 with h2 | ⟨e2, h2⟩
            · rw [e1] at self; rw [e1, self] at h2; cases h2
            · omega
    · exact (h2 i hi.1 hi.2.1).elim
  · rcases hb with ⟨j, hj, rfl⟩ | ⟨h2, rfl⟩
    · exact (h1 j hj.1 hj.2.1).elim
    · rfl

/-! ## C132 -/

/-- **C132 (partial).**  For an Accept header of ranges that follow the grammar, in any order, the media type selected is
the first of the best of those on offer, where the quality of each is that of the most specific range that applies to it;
it is none only if none is acceptable.  Each media type has one such quality.  Missing: wildcards with parameters, see
`select_refuted`. -/
theorem select_partial (items : List AcceptItem) (hok : ∀ i ∈ items, RangeOk i.range) :
    (∀ m, ∃ q, IsQuality items m q ∧ ∀ q', IsQuality items m q' → q' = q) ∧
    ∀ (types : List MediaType) (quality : MediaType → Nat), (∀ m ∈ types, IsQuality items m (quality m)) →
      IsBest quality types (selectType (acceptList items) types) := by
  refine ⟨fun m => ⟨_, firstQuality_is hok m, fun q' h => quality_unique h (firstQuality_is hok m)⟩, ?_⟩
  intro types quality hq
  rw [selectType_eq]
  have e : ∀ m ∈ types, firstQuality (acceptList items) m = quality m := fun m hm =>
    quality_unique (firstQuality_is hok m) (hq m hm)
  have : types.foldl (fun b x => better b x (firstQuality (acceptList items) x)) (none, 0) =
      types.foldl (fun b x => better b x (quality x)) (none, 0) := by
    generalize ((none, 0) : Option MediaType × Nat) = b
    clear hq
    induction types generalizing b with
    | nil => rfl
    | cons x l ih =>
      rw [List.foldl_cons, List.foldl_cons, e x (by simp)]
      exact ih (fun m hm => e m (by simp [hm])) _
  rw [this]
  exact select_best quality types

/-- **C132 refuted.**  The parameters of a range `text/*; level=1` are not looked at: a type without them is selected,
although nothing applies to it. -/
theorem select_refuted :
    let items : List AcceptItem := [⟨⟨"text".toList, ['*'], [⟨"level".toList, "level".toList, ['1']⟩]⟩, 1000, []⟩]
    let plain : MediaType := ⟨"text".toList, "plain".toList, []⟩
    acceptFromString (fun _ => false) "text/*; level=1".toList = some (.ok items) ∧
    IsQuality items plain 0 ∧ selectType (acceptList items) [plain] = some plain := by
  refine ⟨by decide +kernel, .inr ⟨?_, rfl⟩, by decide +kernel⟩
  intro i hi
  rw [List.mem_singleton] at hi
  subst hi
  rintro ⟨_, _, h⟩
  exact absurd (h _ (List.mem_singleton.mpr rfl)) (by decide +kernel)

/-- **C132.**  The order of the items of an Accept header does not matter, whatever the ranges. -/
theorem order_exact (items items' : List AcceptItem) (h : items.Perm items') (types : List MediaType) :
    selectType (acceptList items) types = selectType (acceptList items') types := by
  rw [selectType_eq, selectType_eq]
  have : firstQuality (acceptList items) = firstQuality (acceptList items') := by
    funext m
    have h1 := find_sorted (cmp := cmpItem) (p := fun i => rangeMatches i.range m) (items := items)
    have h2 := find_sorted (cmp := cmpItem) (p := fun i => rangeMatches i.range m) (items := items')
    unfold firstQuality acceptList
    generalize (Paging.stableSort (fun a b => (cmpItem a b).isLE) items).find? (fun i => rangeMatches i.range m) = a at h1 ⊢
    generalize (Paging.stableSort (fun a b => (cmpItem a b).isLE) items').find? (fun i => rangeMatches i.range m) = b at h2 ⊢
    cases a with
    | none => cases b with
      | none => rfl
      | some j =>
        have := h1 j (h.mem_iff.mpr h2.1)
        rw [h2.2.1] at this
        cases this
    | some i => cases b with
      | none =>
        have := h2 i (h.mem_iff.mp h1.1)
        rw [h1.2.1] at this
        cases this
      | some j =>
        have a1 := h1.2.2 j (h.mem_iff.mpr h2.1) h2.2.1
        have a2 := h2.2.2 i (h.mem_iff.mp h1.1) h1.2.1
        have e : cmpItem i j = .eq := eq_of_both a1 a2
        unfold cmpItem at e
        have : compare j.q i.q = .eq := by
          cases hr : cmpRange i.range j.range <;> rw [hr] at e <;> first | exact e | cases e
        exact (Nat.compare_eq_eq.mp this).symm
  rw [this]

/-- **C132 (partial).**  From the text of a header to the type: a request with the items in any order is answered with
the first of the best types.  Without a header, or with one that is a syntax error, the default of the server is used. -/
theorem negotiate_partial (up : Str → Bool) (default items : List AcceptItem) (types : List MediaType) (h0 : items ≠ [])
    (h : ∀ i ∈ items, ItemOk i) (hr : ∀ i ∈ items, RangeOk i.range) (quality : MediaType → Nat)
    (hq : ∀ m ∈ types, IsQuality items m (quality m)) :
    (∃ r, negotiate up default (some (formatAccept items)) types = some (.ok r) ∧ IsBest quality types r) ∧
    negotiate up default none types = some (.ok (selectType default types)) ∧
    ∀ t, acceptFromString up t = some (.error .syntaxError) →
      negotiate up default (some t) types = negotiate up default none types := by
  refine ⟨⟨_, ?_, (select_partial items hr).2 types quality hq⟩, rfl, ?_⟩
  · have hcw : cWord (listWords items) ≠ some [' '] := by
      cases items with
      | nil => simp [listWords, cWord]
      | cons i l =>
        have hi := (token_iff _).mpr (h i (by simp)).1
        have : cWord (listWords (i :: l)) = some i.range.type := by cases l <;> rfl
        rw [this]
        simp only [ne_eq, Option.some.injEq]
        exact token_ne_sep hi (by decide)
    have hemp : items.isEmpty = false := by
      cases items with
      | nil => exact (h0 rfl).elim
      | cons => rfl
    have hreq : requireAcceptList up (listWords items) = .ok (acceptList items, []) := by
      unfold requireAcceptList
      rw [bind_run, parseSP_other hcw, Except.bind, bind_run, get_run, Except.bind, bind_run,
        itemLoop_good up h _ listWords_length, Except.bind]
      dsimp only
      rw [hemp]
      rfl
    have : acceptFromString up (formatAccept items) = some (.ok (acceptList items)) := by
      refine fromString_ok (r := []) (words_list h) ?_
      rw [bind_run, hreq]
      rfl
    unfold negotiate
    dsimp only
    rw [this]
    rfl
  · intro t ht
    unfold negotiate
    dsimp only
    rw [ht]
    rfl

/-- The hypotheses of `select_partial` and `negotiate_partial` are met by the example of RFC 2616, section 14.1. -/
theorem select_hypotheses :
    let t := fun (a b : String) (ps : Params) => (⟨a.toList, b.toList, ps⟩ : MediaType)
    let lv := fun c => [(⟨"level".toList, "level".toList, [c]⟩ : Param)]
    let items : List AcceptItem := [⟨t "text" "*" [], 300, []⟩, ⟨t "text" "html" [], 700, []⟩,
      ⟨t "text" "html" (lv '1'), 1000, []⟩, ⟨t "text" "html" (lv '2'), 400, []⟩, ⟨t "*" "*" [], 500, []⟩]
    (∀ i ∈ items, RangeOk i.range) ∧
    acceptFromString (fun _ => false) "text/*;q=0.3, text/html;q=0.7, text/html;level=1, text/html;level=2;q=0.4, */*;q=0.5".toList =
      some (.ok (acceptList items)) ∧
    [t "text" "html" (lv '1'), t "text" "html" [], t "text" "plain" [], t "image" "jpeg" [], t "text" "html" (lv '2'),
      t "text" "html" (lv '3')].map (firstQuality (acceptList items)) = [1000, 700, 300, 500, 400, 700] ∧
    selectType (acceptList items) [t "text" "plain" [], t "TEXT" "HTML" (lv '3'), t "text" "html" []] =
      some (t "TEXT" "HTML" (lv '3')) := by
  refine ⟨?_, by decide +kernel, by decide +kernel, by decide +kernel⟩
  intro i hi
  simp only [List.mem_cons, List.not_mem_nil, or_false] at hi
  rcases hi with rfl | rfl | rfl | rfl | rfl <;> refine ⟨by decide, by decide⟩

end Verif.Props
