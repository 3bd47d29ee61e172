import Verif.Spec.MemLinks

/-!
# Lemmas about links
-/

set_option linter.unusedVariables false
set_option linter.unusedSimpArgs false
set_option linter.unusedSectionVars false

namespace Verif.MemLinks

open Verif.Spec.MemLinks

variable {K : Type} [DecidableEq K]

/-! ### Pairs -/

theorem mem_look (ps : List (K × K)) (k j : K) : j ∈ look ps k ↔ (k, j) ∈ ps := by
  unfold look
  simp only [List.mem_map, List.mem_filter, decide_eq_true_eq]
  constructor
  · rintro ⟨⟨a, b⟩, ⟨h, h1⟩, h2⟩
    simp only at h1 h2
    subst h1 h2
    exact h
  · intro h
    exact ⟨(k, j), ⟨h, rfl⟩, rfl⟩

theorem nodup_look (ps : List (K × K)) (k : K) (h : ps.Nodup) : (look ps k).Nodup := by
  induction ps with
  | nil => simp [look]
  | cons p ps ih =>
    obtain ⟨a, b⟩ := p
    rw [List.nodup_cons] at h
    by_cases ha : a = k
    · subst ha
      have : look ((a, b) :: ps) a = b :: look ps a := by simp [look]
      rw [this, List.nodup_cons, mem_look]
      exact ⟨h.1, ih h.2⟩
    · have : look ((a, b) :: ps) k = look ps k := by simp [look, ha]
      rw [this]
      exact ih h.2

theorem mem_addPair (ps : List (K × K)) (p q : K × K) : q ∈ addPair ps p ↔ q ∈ ps ∨ q = p := by
  unfold addPair
  split
  · rename_i h
    constructor
    · exact .inl
    · rintro (h2 | h2)
      · exact h2
      · subst h2; exact h
  · simp

theorem nodup_addPair (ps : List (K × K)) (p : K × K) (h : ps.Nodup) : (addPair ps p).Nodup := by
  unfold addPair
  split
  · exact h
  · rename_i hp
    rw [List.nodup_append]
    refine ⟨h, by simp, ?_⟩
    intro a ha b hb
    simp at hb
    subst hb
    intro he
    subst he
    exact hp ha

theorem mem_dropPair (ps : List (K × K)) (p q : K × K) : q ∈ dropPair ps p ↔ q ∈ ps ∧ q ≠ p := by
  simp [dropPair, List.mem_filter]

theorem nodup_dropPair (ps : List (K × K)) (p : K × K) (h : ps.Nodup) : (dropPair ps p).Nodup := h.filter _

/-! ### Good states -/

/-- Both dictionaries hold the same links, each once. -/
structure Good (st : St K) : Prop where
  agree : ∀ a f t, (f, t) ∈ st.fwd a ↔ (t, f) ∈ st.rev a
  fwd : ∀ a, (st.fwd a).Nodup
  rev : ∀ a, (st.rev a).Nodup

/-- The links, seen from an end. -/
def Lk (st : St K) (e : EndId) (k j : K) : Prop := if e.2 then (j, k) ∈ st.fwd e.1 else (k, j) ∈ st.fwd e.1

theorem other_other (e : EndId) : e.other.other = e := by
  obtain ⟨a, b⟩ := e; simp [EndId.other]

theorem other_ne (e : EndId) : e.other ≠ e := by
  obtain ⟨a, b⟩ := e; simp [EndId.other]

theorem near_other (env : Env K) (e : EndId) : env.near e.other = env.far e := by
  obtain ⟨a, b⟩ := e; cases b <;> rfl

theorem far_other (env : Env K) (e : EndId) : env.far e.other = env.near e := by
  obtain ⟨a, b⟩ := e; cases b <;> rfl

theorem lk_other (st : St K) (e : EndId) (k j : K) : Lk st e.other j k ↔ Lk st e k j := by
  obtain ⟨a, b⟩ := e; cases b <;> simp [Lk, EndId.other]

theorem mem_getLinks {env : Env K} (henv : EnvOk env) {st : St K} (h : Good st) (e : EndId) (k j : K) :
    j ∈ getLinks env st e k ↔ Lk st e k j := by
  unfold getLinks Lk
  rw [(henv.ord _).mem_iff, mem_look]
  cases e.2
  · simp
  · simp only [if_true]; exact (h.agree _ _ _).symm

theorem nodup_getLinks {env : Env K} (henv : EnvOk env) {st : St K} (h : Good st) (e : EndId) (k : K) :
    (getLinks env st e k).Nodup := by
  unfold getLinks
  rw [(henv.ord _).nodup_iff]
  split
  · exact nodup_look _ _ (h.rev _)
  · exact nodup_look _ _ (h.fwd _)

theorem getLinks_nil {env : Env K} (henv : EnvOk env) {st : St K} (h : Good st) (e : EndId) (k : K) :
    getLinks env st e k = [] ↔ ∀ j, ¬ Lk st e k j := by
  rw [List.eq_nil_iff_forall_not_mem]
  exact forall_congr' fun j => not_congr (mem_getLinks henv h e k j)

theorem addLink_good {st : St K} (h : Good st) (a : Nat) (f t : K) : Good (addLink st a f t) := by
  refine ⟨?_, ?_, ?_⟩
  · intro b f' t'
    simp only [addLink, put]
    split
    · rename_i hb
      subst hb
      rw [mem_addPair, mem_addPair, h.agree]
      simp [Prod.mk.injEq, and_comm]
    · exact h.agree _ _ _
  · intro b
    simp only [addLink, put]
    split
    · exact nodup_addPair _ _ (h.fwd _)
    · exact h.fwd _
  · intro b
    simp only [addLink, put]
    split
    · exact nodup_addPair _ _ (h.rev _)
    · exact h.rev _

theorem removeLink_good {st : St K} (h : Good st) (a : Nat) (f t : K) : Good (removeLink st a f t) := by
  refine ⟨?_, ?_, ?_⟩
  · intro b f' t'
    simp only [removeLink, put]
    split
    · rename_i hb
      subst hb
      rw [mem_dropPair, mem_dropPair, h.agree]
      simp [Prod.mk.injEq, and_comm]
    · exact h.agree _ _ _
  · intro b
    simp only [removeLink, put]
    split
    · exact nodup_dropPair _ _ (h.fwd _)
    · exact h.fwd _
  · intro b
    simp only [removeLink, put]
    split
    · exact nodup_dropPair _ _ (h.rev _)
    · exact h.rev _

theorem addAt_good {st : St K} (h : Good st) (e : EndId) (k j : K) : Good (addAt st e k j) := by
  unfold addAt; split <;> exact addLink_good h _ _ _

theorem removeAt_good {st : St K} (h : Good st) (e : EndId) (k j : K) : Good (removeAt st e k j) := by
  unfold removeAt; split <;> exact removeLink_good h _ _ _

theorem addAt_data (st : St K) (e : EndId) (k j : K) : (addAt st e k j).data = st.data ∧ (addAt st e k j).deleting = st.deleting := by
  unfold addAt addLink; split <;> exact ⟨rfl, rfl⟩

theorem removeAt_data (st : St K) (e : EndId) (k j : K) :
    (removeAt st e k j).data = st.data ∧ (removeAt st e k j).deleting = st.deleting := by
  unfold removeAt removeLink; split <;> exact ⟨rfl, rfl⟩

theorem lk_addAt (st : St K) (e : EndId) (k j : K) (e' : EndId) (k' j' : K) :
    Lk (addAt st e k j) e' k' j' ↔ Lk st e' k' j' ∨ (e' = e ∧ k' = k ∧ j' = j) ∨ (e' = e.other ∧ k' = j ∧ j' = k) := by
  obtain ⟨a, b⟩ := e
  obtain ⟨a', b'⟩ := e'
  cases b <;> cases b' <;> by_cases ha : a' = a <;>
    simp [Lk, addAt, addLink, put, EndId.other, mem_addPair, ha, and_comm]

theorem lk_removeAt (st : St K) (e : EndId) (k j : K) (e' : EndId) (k' j' : K) :
    Lk (removeAt st e k j) e' k' j' ↔ Lk st e' k' j' ∧ ¬(e' = e ∧ k' = k ∧ j' = j) ∧ ¬(e' = e.other ∧ k' = j ∧ j' = k) := by
  obtain ⟨a, b⟩ := e
  obtain ⟨a', b'⟩ := e'
  cases b <;> cases b' <;> by_cases ha : a' = a <;>
    simp [Lk, removeAt, removeLink, put, EndId.other, mem_dropPair, ha, and_comm]

/-! ### Hooks -/

theorem hookLoop_spec (k : K) (js : List K) (qs : List (K × K)) (hn : js.Nodup) (h : ∀ j ∈ js, (j, k) ∈ qs) :
    (hookLoop k js qs).2 = true ∧ (∀ q, q ∈ (hookLoop k js qs).1 ↔ q ∈ qs ∧ ¬(q.2 = k ∧ q.1 ∈ js)) ∧
      (qs.Nodup → (hookLoop k js qs).1.Nodup) := by
  induction js generalizing qs with
  | nil => simp [hookLoop]
  | cons j js ih =>
    rw [List.nodup_cons] at hn
    have hj := h j (by simp)
    simp only [hookLoop, if_pos hj]
    obtain ⟨h1, h2, h3⟩ := ih (dropPair qs (j, k)) hn.2 (by
      intro i hi
      rw [mem_dropPair]
      refine ⟨h i (List.mem_cons_of_mem _ hi), ?_⟩
      intro he
      cases he
      exact hn.1 hi)
    refine ⟨h1, ?_, fun hq => h3 (nodup_dropPair _ _ hq)⟩
    intro q
    rw [h2, mem_dropPair]
    obtain ⟨x, y⟩ := q
    simp only [List.mem_cons, ne_eq, Prod.mk.injEq]
    constructor
    · rintro ⟨⟨ha, hb⟩, hc⟩
      refine ⟨ha, ?_⟩
      rintro ⟨h1, h2 | h2⟩
      · exact hb ⟨h2, h1⟩
      · exact hc ⟨h1, h2⟩
    · rintro ⟨ha, hb⟩
      refine ⟨⟨ha, fun hc => hb ⟨hc.2, .inl hc.1⟩⟩, fun hc => hb ⟨hc.1, .inr hc.2⟩⟩

theorem hook_spec {env : Env K} (henv : EnvOk env) (ps qs : List (K × K)) (k : K) (hps : ps.Nodup) (hqs : qs.Nodup)
    (h : ∀ a b, (a, b) ∈ ps ↔ (b, a) ∈ qs) :
    (∀ p, p ∈ (hook env ps qs k).1 ↔ p ∈ ps ∧ p.1 ≠ k) ∧ (∀ q, q ∈ (hook env ps qs k).2 ↔ q ∈ qs ∧ q.2 ≠ k) ∧
      (hook env ps qs k).1.Nodup ∧ (hook env ps qs k).2.Nodup := by
  have hn : (env.ord (look ps k)).Nodup := by rw [(henv.ord _).nodup_iff]; exact nodup_look _ _ hps
  obtain ⟨h1, h2, h3⟩ := hookLoop_spec k (env.ord (look ps k)) qs hn (by
    intro j hj
    rw [(henv.ord _).mem_iff, mem_look] at hj
    exact (h _ _).mp hj)
  unfold hook
  simp only [h1, if_true]
  refine ⟨by intro p; simp [List.mem_filter], ?_, hps.filter _, h3 hqs⟩
  intro q
  rw [h2]
  constructor
  · rintro ⟨ha, hb⟩
    refine ⟨ha, fun hc => hb ⟨hc, ?_⟩⟩
    rw [(henv.ord _).mem_iff, mem_look, h]
    rw [← hc]
    exact ha
  · rintro ⟨ha, hb⟩
    exact ⟨ha, fun hc => hb hc.1⟩

theorem hookEnd_spec {env : Env K} (henv : EnvOk env) {st : St K} (h : Good st) (k : K) (e : EndId) :
    Good (hookEnd env k st e) ∧ (hookEnd env k st e).data = st.data ∧ (hookEnd env k st e).deleting = st.deleting ∧
      ∀ e' k' j', Lk (hookEnd env k st e) e' k' j' ↔
        Lk st e' k' j' ∧ ¬((env.assoc e.1).indexed = true ∧ ((e' = e ∧ k' = k) ∨ (e' = e.other ∧ j' = k))) := by
  obtain ⟨a, b⟩ := e
  unfold hookEnd
  cases hi : (env.assoc a).indexed
  · simp [hi]
    exact h
  · cases b
    · obtain ⟨h1, h2, h3, h4⟩ := hook_spec henv (st.fwd a) (st.rev a) k (h.fwd a) (h.rev a) (h.agree a)
      simp only [hi, if_true, Bool.false_eq_true, if_false]
      refine ⟨⟨?_, ?_, ?_⟩, trivial, trivial, ?_⟩
      · intro c f t
        simp only [put]
        split
        · rename_i hc; subst hc
          rw [h1, h2, h.agree]
        · exact h.agree _ _ _
      · intro c; simp only [put]; split
        · exact h3
        · exact h.fwd _
      · intro c; simp only [put]; split
        · exact h4
        · exact h.rev _
      · rintro ⟨a', b'⟩ k' j'
        cases b' <;> by_cases ha : a' = a <;> simp [Lk, put, EndId.other, ha, h1]
    · obtain ⟨h1, h2, h3, h4⟩ := hook_spec henv (st.rev a) (st.fwd a) k (h.rev a) (h.fwd a) (fun x y => (h.agree a y x).symm)
      simp only [hi, if_true]
      refine ⟨⟨?_, ?_, ?_⟩, trivial, trivial, ?_⟩
      · intro c f t
        simp only [put]
        split
        · rename_i hc; subst hc
          rw [h1, h2, h.agree]
        · exact h.agree _ _ _
      · intro c; simp only [put]; split
        · exact h4
        · exact h.fwd _
      · intro c; simp only [put]; split
        · exact h3
        · exact h.rev _
      · rintro ⟨a', b'⟩ k' j'
        cases b' <;> by_cases ha : a' = a <;> simp [Lk, put, EndId.other, ha, h2]

theorem hooks_spec {env : Env K} (henv : EnvOk env) (k : K) (es : List EndId) {st : St K} (h : Good st) :
    Good (es.foldl (hookEnd env k) st) ∧ (es.foldl (hookEnd env k) st).data = st.data ∧
      (es.foldl (hookEnd env k) st).deleting = st.deleting ∧
      ∀ e' k' j', Lk (es.foldl (hookEnd env k) st) e' k' j' ↔
        Lk st e' k' j' ∧ ¬ ∃ e ∈ es, (env.assoc e.1).indexed = true ∧ ((e' = e ∧ k' = k) ∨ (e' = e.other ∧ j' = k)) := by
  induction es generalizing st with
  | nil => simp; exact h
  | cons e es ih =>
    obtain ⟨h1, h2, h3, h4⟩ := hookEnd_spec henv h k e
    obtain ⟨i1, i2, i3, i4⟩ := ih h1
    rw [List.foldl_cons]
    refine ⟨i1, by rw [i2, h2], by rw [i3, h3], ?_⟩
    intro e' k' j'
    rw [i4, h4]
    constructor
    · rintro ⟨⟨a, b⟩, c⟩
      refine ⟨a, ?_⟩
      rintro ⟨x, hx, hr⟩
      rcases List.mem_cons.mp hx with hx | hx
      · subst hx; exact b hr
      · exact c ⟨x, hx, hr⟩
    · rintro ⟨a, b⟩
      exact ⟨⟨a, fun hr => b ⟨e, by simp, hr⟩⟩, fun ⟨x, hx, hr⟩ => b ⟨x, List.mem_cons_of_mem _ hx, hr⟩⟩

/-- What `deleteEntity` does. -/
theorem deleteEntity_spec {env : Env K} (henv : EnvOk env) (s : Nat) (k : K) {st : St K} (h : Good st) :
    Good (deleteEntity env s k st).1 ∧
      (deleteEntity env s k st).1.data = st.data.filter (fun x => !decide (x = (s, k))) ∧
      (deleteEntity env s k st).1.deleting = st.deleting ∧
      ((deleteEntity env s k st).2 = none ↔ (s, k) ∈ st.data) ∧ (deleteEntity env s k st).2 ≠ some .fuel ∧
      ∀ e' k' j', Lk (deleteEntity env s k st).1 e' k' j' ↔
        Lk st e' k' j' ∧ ¬ ∃ e ∈ env.links s, (env.assoc e.1).indexed = true ∧ ((e' = e ∧ k' = k) ∨ (e' = e.other ∧ j' = k)) := by
  obtain ⟨h1, h2, h3, h4⟩ := hooks_spec henv k ((env.links s).filter (fun e => !e.2)) h
  obtain ⟨i1, i2, i3, i4⟩ := hooks_spec henv k ((env.links s).filter (fun e => e.2)) h1
  have hl : ∀ e' k' j', Lk (((env.links s).filter (fun e => e.2)).foldl (hookEnd env k)
        (((env.links s).filter (fun e => !e.2)).foldl (hookEnd env k) st)) e' k' j' ↔
      Lk st e' k' j' ∧ ¬ ∃ e ∈ env.links s, (env.assoc e.1).indexed = true ∧ ((e' = e ∧ k' = k) ∨ (e' = e.other ∧ j' = k)) := by
    intro e' k' j'
    rw [i4, h4]
    constructor
    · rintro ⟨⟨a, b⟩, c⟩
      refine ⟨a, ?_⟩
      rintro ⟨x, hx, hr⟩
      cases hx2 : x.2
      · exact b ⟨x, List.mem_filter.mpr ⟨hx, by simp [hx2]⟩, hr⟩
      · exact c ⟨x, List.mem_filter.mpr ⟨hx, hx2⟩, hr⟩
    · rintro ⟨a, b⟩
      exact ⟨⟨a, fun ⟨x, hx, hr⟩ => b ⟨x, (List.mem_filter.mp hx).1, hr⟩⟩, fun ⟨x, hx, hr⟩ => b ⟨x, (List.mem_filter.mp hx).1, hr⟩⟩
  unfold deleteEntity
  simp only
  rw [i2, h2]
  split
  · rename_i hm
    exact ⟨⟨i1.agree, i1.fwd, i1.rev⟩, rfl, by rw [← h3, ← i3], by simp [hm], by simp, hl⟩
  · rename_i hm
    refine ⟨i1, ?_, by rw [i3, h3], by simp [hm], by simp, hl⟩
    rw [i2, h2]
    symm
    rw [List.filter_eq_self]
    intro x hx
    simp
    intro he
    subst he
    exact hm hx

/-! ### Sequences -/

theorem andThen_keeps {P : St K → Prop} {r : Res K} {f : St K → Res K} (h : P r.1) (hf : ∀ st, P st → P (f st).1) :
    P (r.andThen f).1 := by
  unfold Res.andThen
  split
  · exact hf _ h
  · exact h

theorem andThen_none {r : Res K} {f : St K → Res K} (h : (r.andThen f).2 = none) :
    r.2 = none ∧ (f r.1).2 = none ∧ r.andThen f = f r.1 := by
  unfold Res.andThen at h ⊢
  split at h
  · rename_i hr; simp only [hr]; exact ⟨trivial, h, trivial⟩
  · cases h

/-! ### Deletion keeps what its steps keep -/

theorem delKeys_keeps {P : St K → Prop} (dl : St K → Nat → K → Res K) (hr : ∀ st e k j, P st → P (removeAt st e k j))
    (hd : ∀ st s k, P st → P (dl st s k).1) (d : EndId) (o : Nat) (nav : Bool) (k : K) (js : List K) (st : St K) (h : P st) :
    P (delKeys dl d o nav k js st).1 := by
  induction js generalizing st with
  | nil => exact h
  | cons j js ih =>
    simp only [delKeys]
    split
    · exact h
    · exact andThen_keeps (hd _ _ _ (hr _ _ _ _ h)) ih

theorem delEnds_keeps (env : Env K) {P : St K → Prop} (dl : St K → Nat → K → Res K) (hr : ∀ st e k j, P st → P (removeAt st e k j))
    (hd : ∀ st s k, P st → P (dl st s k).1) (s : Nat) (k : K) (es : List EndId) (st : St K) (h : P st) :
    P (delEnds env dl s k es st).1 := by
  induction es generalizing st with
  | nil => exact h
  | cons e es ih =>
    simp only [delEnds]
    refine andThen_keeps ?_ ih
    split
    · split
      · split
        · exact delKeys_keeps dl hr hd _ _ _ _ _ _ h
        · exact delKeys_keeps dl hr hd _ _ _ _ _ _ h
      · exact h
    · exact h

theorem del_keeps (env : Env K) {P : St K → Prop} (hr : ∀ st e k j, P st → P (removeAt st e k j))
    (hd : ∀ st d, P st → P { st with deleting := d }) (he : ∀ st s k, P st → P (deleteEntity env s k st).1)
    (n : Nat) (st : St K) (s : Nat) (k : K) (h : P st) : P (del env n st s k).1 := by
  induction n generalizing st s k with
  | zero => exact h
  | succ n ih =>
    simp only [del]
    split
    · exact h
    · split
      · exact h
      · apply hd
        exact andThen_keeps (delEnds_keeps env _ hr ih _ _ _ _ (hd _ _ h)) (fun st h => he _ _ _ h)

/-- What happens in every deletion, also in one that fails. -/
structure Shrinks (st st' : St K) : Prop where
  good : Good st'
  deleting : st'.deleting = st.deleting
  data : st'.data.Sublist st.data
  links : ∀ e k j, Lk st' e k j → Lk st e k j

theorem Shrinks.refl {st : St K} (h : Good st) : Shrinks st st := ⟨h, rfl, List.Sublist.refl _, fun _ _ _ h => h⟩

theorem Shrinks.trans {a b c : St K} (h : Shrinks a b) (h2 : Shrinks b c) : Shrinks a c :=
  ⟨h2.good, h2.deleting.trans h.deleting, h2.data.trans h.data, fun e k j x => h.links e k j (h2.links e k j x)⟩

theorem removeAt_shrinks {st : St K} (h : Good st) (e : EndId) (k j : K) : Shrinks st (removeAt st e k j) :=
  ⟨removeAt_good h _ _ _, (removeAt_data st e k j).2, by rw [(removeAt_data st e k j).1]; exact List.Sublist.refl _,
    fun e' k' j' x => ((lk_removeAt st e k j e' k' j').mp x).1⟩

theorem deleteEntity_shrinks {env : Env K} (henv : EnvOk env) (s : Nat) (k : K) {st : St K} (h : Good st) :
    Shrinks st (deleteEntity env s k st).1 := by
  obtain ⟨h1, h2, h3, h4, _, h5⟩ := deleteEntity_spec henv s k h
  exact ⟨h1, h3, by rw [h2]; exact List.filter_sublist, fun e k j x => ((h5 _ _ _).mp x).1⟩

theorem andThen_shrinks {st : St K} {r : Res K} {f : St K → Res K} (h : Shrinks st r.1)
    (hf : ∀ st, Good st → Shrinks st (f st).1) : Shrinks st (r.andThen f).1 := by
  unfold Res.andThen
  split
  · exact h.trans (hf _ h.good)
  · exact h

theorem delKeys_shrinks {dl : St K → Nat → K → Res K} (hd : ∀ st s k, Good st → Shrinks st (dl st s k).1)
    (d : EndId) (o : Nat) (nav : Bool) (k : K) (js : List K) (st : St K) (h : Good st) :
    Shrinks st (delKeys dl d o nav k js st).1 := by
  induction js generalizing st with
  | nil => exact .refl h
  | cons j js ih =>
    simp only [delKeys]
    split
    · exact .refl h
    · have h1 := removeAt_shrinks h d k j
      exact andThen_shrinks (h1.trans (hd _ _ _ h1.good)) ih

theorem delEnds_shrinks (env : Env K) {dl : St K → Nat → K → Res K} (hd : ∀ st s k, Good st → Shrinks st (dl st s k).1)
    (s : Nat) (k : K) (es : List EndId) (st : St K) (h : Good st) : Shrinks st (delEnds env dl s k es st).1 := by
  induction es generalizing st with
  | nil => exact .refl h
  | cons e es ih =>
    simp only [delEnds]
    refine andThen_shrinks ?_ ih
    split
    · split
      · split
        · exact delKeys_shrinks hd _ _ _ _ _ _ h
        · exact delKeys_shrinks hd _ _ _ _ _ _ h
      · exact .refl h
    · exact .refl h

theorem filter_self (D : List (Nat × K)) (x : Nat × K) (h : x ∉ D) : ((x :: D).filter fun y => !decide (y = x)) = D := by
  rw [List.filter_cons]
  simp
  intro a b hab he
  subst he
  exact h hab

theorem del_shrinks {env : Env K} (henv : EnvOk env) (n : Nat) (st : St K) (s : Nat) (k : K) (h : Good st) :
    Shrinks st (del env n st s k).1 := by
  induction n generalizing st s k with
  | zero => exact .refl h
  | succ n ih =>
    simp only [del]
    split
    · exact .refl h
    · rename_i hnd
      split
      · exact .refl h
      · have h0 : Good ({ st with deleting := (s, k) :: st.deleting } : St K) := ⟨h.agree, h.fwd, h.rev⟩
        have h1 := delEnds_shrinks env ih s k (env.links s) _ h0
        have h2 := andThen_shrinks h1 (f := deleteEntity env s k) (fun st h => deleteEntity_shrinks henv s k h)
        refine ⟨⟨h2.good.agree, h2.good.fwd, h2.good.rev⟩, ?_, h2.data, h2.links⟩
        simp only
        rw [h2.deleting]
        exact filter_self _ _ hnd

/-! ### Deletion comes to an end -/

/-- The number of entities that are not being deleted. -/
def alive (st : St K) : Nat := (st.data.filter fun x => !decide (x ∈ st.deleting)).length

theorem alive_le {st st' : St K} (h : Shrinks st st') : alive st' ≤ alive st := by
  unfold alive
  rw [h.deleting]
  exact (h.data.filter _).length_le

theorem andThen_fuel {r : Res K} {f : St K → Res K} (h : r.2 ≠ some .fuel) (hf : (f r.1).2 ≠ some .fuel) :
    (r.andThen f).2 ≠ some .fuel := by
  unfold Res.andThen
  split
  · exact hf
  · rename_i x hx; rw [← hx]; exact h

theorem filter_lt {α : Type} (p q : α → Bool) (l : List α) (h : ∀ x, q x = true → p x = true) (x : α) (hx : x ∈ l)
    (hp : p x = true) (hq : q x = false) : (l.filter q).length < (l.filter p).length := by
  have hle : ∀ l : List α, (l.filter q).length ≤ (l.filter p).length := by
    intro l
    induction l with
    | nil => simp
    | cons y l ih =>
      rw [List.filter_cons, List.filter_cons]
      cases hqy : q y
      · cases hpy : p y
        · simpa using ih
        · simp; omega
      · rw [h y hqy]; simpa using ih
  induction l with
  | nil => simp at hx
  | cons y l ih =>
    rw [List.filter_cons, List.filter_cons]
    rcases List.mem_cons.mp hx with hx | hx
    · subst hx
      rw [hp, hq]
      have := hle l
      simp
      omega
    · have := ih hx
      cases hqy : q y
      · cases hpy : p y
        · simpa using this
        · simp; omega
      · rw [h y hqy]; simpa using this

theorem del_fuel {env : Env K} (henv : EnvOk env) (n : Nat) (st : St K) (s : Nat) (k : K) (h : Good st) (hn : alive st < n) :
    (del env n st s k).2 ≠ some .fuel := by
  induction n generalizing st s k with
  | zero => omega
  | succ n ih =>
    simp only [del]
    split
    · simp
    · rename_i hnd
      split
      · simp
      · rename_i hd
        have hd : (s, k) ∈ st.data := Classical.byContradiction hd
        simp only
        let st0 : St K := { st with deleting := (s, k) :: st.deleting }
        have h0 : Good st0 := ⟨h.agree, h.fwd, h.rev⟩
        have ha : alive st0 < n := by
          have : alive st0 < alive st := by
            unfold alive
            refine filter_lt _ _ st.data ?_ (s, k) hd ?_ ?_
            · intro x; simp [st0]
            · simpa using hnd
            · simp [st0]
          omega
        have hkeys : ∀ (d : EndId) (o : Nat) (nav : Bool) (js : List K) (st : St K), Good st → alive st < n →
            (delKeys (del env n) d o nav k js st).2 ≠ some .fuel := by
          intro d o nav js
          induction js with
          | nil => intro st _ _; simp [delKeys]
          | cons j js ihj =>
            intro st hg hal
            simp only [delKeys]
            split
            · simp
            · have h1 := removeAt_shrinks hg d k j
              have h2 := del_shrinks henv n _ o j h1.good
              exact andThen_fuel (ih _ _ _ h1.good (Nat.lt_of_le_of_lt (alive_le h1) hal))
                (ihj _ h2.good (Nat.lt_of_le_of_lt (alive_le (h1.trans h2)) hal))
        have hends : ∀ (es : List EndId) (st : St K), Good st → alive st < n → (delEnds env (del env n) s k es st).2 ≠ some .fuel := by
          intro es
          induction es with
          | nil => intro st _ _; simp [delEnds]
          | cons e es ihe =>
            intro st hg hal
            have hs := delEnds_shrinks env (del_shrinks henv n) s k [e] st hg
            simp only [delEnds] at hs ⊢
            have hone : ∀ r : Res K, (r.andThen fun st => (st, none)).1 = r.1 := by
              intro r; unfold Res.andThen; split <;> rfl
            rw [hone] at hs
            refine andThen_fuel ?_ (ihe _ hs.good (Nat.lt_of_le_of_lt (alive_le hs) hal))
            split
            · split
              · split
                · exact hkeys _ _ _ _ _ hg hal
                · exact hkeys _ _ _ _ _ hg hal
              · simp
            · simp
        have h1 := delEnds_shrinks env (del_shrinks henv n) s k (env.links s) st0 h0
        exact andThen_fuel (hends _ _ h0 ha) (deleteEntity_spec henv s k h1.good).2.2.2.2.1

theorem alive_le_length (st : St K) : alive st ≤ st.data.length := List.length_filter_le _ _

/-! ### Linking -/

/-- The outcome of linking. -/
theorem link_cases {env : Env K} (henv : EnvOk env) {st : St K} (h : Good st) (e : EndId) (k j : K) :
    ((link env st e k j).1 = st ∧ ((link env st e k j).2 = none → Lk st e k j)) ∨
    (link env st e k j = (addAt st e k j, none) ∧ ((env.far e).set, j) ∈ st.data ∧
      ((env.far e).mult ≠ .many → ∀ i, ¬ Lk st e k i) ∧ ((env.near e).mult ≠ .many → ∀ i, ¬ Lk st e i j)) := by
  unfold link
  split
  · rename_i hm
    exact .inl ⟨rfl, fun _ => (mem_getLinks henv h e k j).mp hm⟩
  · split
    · exact .inl ⟨rfl, by simp⟩
    · split
      · exact .inl ⟨rfl, by simp⟩
      · split
        · exact .inl ⟨rfl, by simp⟩
        · rename_i h1 h2 h3 h4
          refine .inr ⟨rfl, Classical.byContradiction h2, ?_, ?_⟩
          · intro hf
            have : getLinks env st e k = [] := Classical.byContradiction fun hc => h3 ⟨hf, hc⟩
            exact (getLinks_nil henv h e k).mp this
          · intro hf i
            have : getLinks env st e.other j = [] := Classical.byContradiction fun hc => h4 ⟨hf, hc⟩
            have := (getLinks_nil henv h e.other j).mp this i
            rwa [lk_other] at this

theorem link_good {env : Env K} (henv : EnvOk env) {st : St K} (h : Good st) (e : EndId) (k j : K) : Good (link env st e k j).1 := by
  rcases link_cases henv h e k j with h1 | h1
  · rw [h1.1]; exact h
  · rw [h1.1]; exact addAt_good h _ _ _

theorem link_data (env : Env K) (st : St K) (e : EndId) (k j : K) :
    (link env st e k j).1.data = st.data ∧ (link env st e k j).1.deleting = st.deleting := by
  unfold link
  split
  · exact ⟨rfl, rfl⟩
  · split
    · exact ⟨rfl, rfl⟩
    · split
      · exact ⟨rfl, rfl⟩
      · split
        · exact ⟨rfl, rfl⟩
        · exact addAt_data _ _ _ _

/-- Removing several links. -/
theorem removeAll_spec (e : EndId) (k : K) (is : List K) {st : St K} (h : Good st) :
    Good (is.foldl (fun st i => removeAt st e k i) st) ∧ (is.foldl (fun st i => removeAt st e k i) st).data = st.data ∧
      (is.foldl (fun st i => removeAt st e k i) st).deleting = st.deleting ∧
      ∀ e' k' j', Lk (is.foldl (fun st i => removeAt st e k i) st) e' k' j' ↔
        Lk st e' k' j' ∧ ¬(e' = e ∧ k' = k ∧ j' ∈ is) ∧ ¬(e' = e.other ∧ k' ∈ is ∧ j' = k) := by
  induction is generalizing st with
  | nil => simp; exact h
  | cons i is ih =>
    obtain ⟨h1, h2, h3, h4⟩ := ih (removeAt_good h e k i)
    rw [List.foldl_cons]
    refine ⟨h1, by rw [h2, (removeAt_data _ _ _ _).1], by rw [h3, (removeAt_data _ _ _ _).2], ?_⟩
    intro e' k' j'
    rw [h4, lk_removeAt]
    simp only [List.mem_cons]
    constructor
    · rintro ⟨⟨a, b, c⟩, d, f⟩
      refine ⟨a, ?_, ?_⟩
      · rintro ⟨x, y, z | z⟩
        · exact b ⟨x, y, z⟩
        · exact d ⟨x, y, z⟩
      · rintro ⟨x, y | y, z⟩
        · exact c ⟨x, y, z⟩
        · exact f ⟨x, y, z⟩
    · rintro ⟨a, b, c⟩
      exact ⟨⟨a, fun ⟨x, y, z⟩ => b ⟨x, y, .inl z⟩, fun ⟨x, y, z⟩ => c ⟨x, .inl y, z⟩⟩,
        fun ⟨x, y, z⟩ => b ⟨x, y, .inr z⟩, fun ⟨x, y, z⟩ => c ⟨x, .inr y, z⟩⟩

/-- The outcome of replacing: nothing, an ordinary link, or all links of the entity replaced by one. -/
theorem replace_cases {env : Env K} (henv : EnvOk env) {st : St K} (h : Good st) (e : EndId) (k j : K) :
    ((replace env st e k j).1 = st ∧ ((replace env st e k j).2 = none → ∀ i, Lk st e k i ↔ i = j)) ∨
    (replace env st e k j = link env st e k j ∧ ∀ i, ¬ Lk st e k i) ∨
    ((env.near e).mult ≠ .one ∧ (replace env st e k j).2 = none ∧ Good (replace env st e k j).1 ∧
      (replace env st e k j).1.data = st.data ∧ (replace env st e k j).1.deleting = st.deleting ∧
      ∀ e' k' j', Lk (replace env st e k j).1 e' k' j' ↔
        (Lk st e' k' j' ∧ ¬(e' = e ∧ k' = k) ∧ ¬(e' = e.other ∧ j' = k)) ∨ (e' = e ∧ k' = k ∧ j' = j) ∨ (e' = e.other ∧ k' = j ∧ j' = k)) := by
  unfold replace
  simp only
  split
  · rename_i ho
    refine .inl ⟨rfl, fun _ i => ?_⟩
    rw [← mem_getLinks henv h, ho]
    simp
  · split
    · split
      · exact .inl ⟨rfl, by simp⟩
      · rename_i hold
        refine .inr (.inl ⟨rfl, fun i hi => ?_⟩)
        rw [← mem_getLinks henv h] at hi
        have hold : getLinks env st e k = [] := Classical.byContradiction hold
        rw [hold] at hi
        cases hi
    · rename_i hne hone
      refine .inr (.inr ⟨hone, rfl, ?_⟩)
      have hg : Good (if j ∈ getLinks env st e k then st else addAt st e k j) := by
        split
        · exact h
        · exact addAt_good h _ _ _
      have hdd : (if j ∈ getLinks env st e k then st else addAt st e k j).data = st.data ∧
          (if j ∈ getLinks env st e k then st else addAt st e k j).deleting = st.deleting := by
        split
        · exact ⟨rfl, rfl⟩
        · exact addAt_data _ _ _ _
      have hlk : ∀ e' k' j', Lk (if j ∈ getLinks env st e k then st else addAt st e k j) e' k' j' ↔
          Lk st e' k' j' ∨ (e' = e ∧ k' = k ∧ j' = j) ∨ (e' = e.other ∧ k' = j ∧ j' = k) := by
        intro e' k' j'
        split
        · rename_i hm
          rw [mem_getLinks henv h] at hm
          constructor
          · exact .inl
          · rintro (hx | ⟨hx, hy, hz⟩ | ⟨hx, hy, hz⟩)
            · exact hx
            · subst hx hy hz; exact hm
            · subst hx hy hz; rw [lk_other]; exact hm
        · exact lk_addAt _ _ _ _ _ _ _
      obtain ⟨h1, h2, h3, h4⟩ := removeAll_spec e k ((getLinks env st e k).filter fun i => !decide (i = j)) hg
      refine ⟨h1, by rw [h2, hdd.1], by rw [h3, hdd.2], ?_⟩
      intro e' k' j'
      rw [h4, hlk]
      have hm : ∀ i, i ∈ (getLinks env st e k).filter (fun i => !decide (i = j)) ↔ Lk st e k i ∧ i ≠ j := by
        intro i; rw [List.mem_filter, mem_getLinks henv h]; simp
      rw [hm, hm]
      constructor
      · rintro ⟨hx | hx | hx, hb, hc⟩
        · by_cases q1 : e' = e ∧ k' = k
          · obtain ⟨q1, q2⟩ := q1
            rw [q1, q2] at hx
            have : j' = j := Classical.byContradiction fun hn => hb ⟨q1, q2, hx, hn⟩
            exact .inr (.inl ⟨q1, q2, this⟩)
          · by_cases q2 : e' = e.other ∧ j' = k
            · obtain ⟨q2, q3⟩ := q2
              rw [q2, q3] at hx
              have : k' = j := Classical.byContradiction fun hn => hc ⟨q2, ⟨(lk_other _ _ _ _).mp hx, hn⟩, q3⟩
              exact .inr (.inr ⟨q2, this, q3⟩)
            · exact .inl ⟨hx, q1, q2⟩
        · exact .inr (.inl hx)
        · exact .inr (.inr hx)
      · rintro (⟨hx, hy, hz⟩ | hx | hx)
        · exact ⟨.inl hx, fun hc => hy ⟨hc.1, hc.2.1⟩, fun hc => hz ⟨hc.1, hc.2.2⟩⟩
        · refine ⟨.inr (.inl hx), fun hc => hc.2.2.2 hx.2.2, fun hc => other_ne e (hc.1.symm.trans hx.1)⟩
        · refine ⟨.inr (.inr hx), fun hc => other_ne e (hx.1.symm.trans hc.1), fun hc => hc.2.1.2 hx.2.1⟩

theorem replace_good {env : Env K} (henv : EnvOk env) {st : St K} (h : Good st) (e : EndId) (k j : K) :
    Good (replace env st e k j).1 := by
  rcases replace_cases henv h e k j with h1 | h1 | h1
  · rw [h1.1]; exact h
  · rw [h1.1]; exact link_good henv h e k j
  · exact h1.2.2.1

theorem replace_data {env : Env K} (henv : EnvOk env) {st : St K} (h : Good st) (e : EndId) (k j : K) :
    (replace env st e k j).1.data = st.data ∧ (replace env st e k j).1.deleting = st.deleting := by
  rcases replace_cases henv h e k j with h1 | h1 | h1
  · rw [h1.1]; exact ⟨rfl, rfl⟩
  · rw [h1.1]; exact link_data env st e k j
  · exact ⟨h1.2.2.2.1, h1.2.2.2.2.1⟩

theorem unlink_cases {env : Env K} (st : St K) (e : EndId) (k j : K) :
    (unlink env st e k j).1 = st ∨
    (unlink env st e k j = (removeAt st e k j, none) ∧ (env.near e).mult ≠ .one ∧ (env.far e).mult ≠ .one) := by
  unfold unlink
  split
  · exact .inl rfl
  · rename_i h
    split
    · exact .inl rfl
    · exact .inr ⟨rfl, fun hc => h (.inl hc), fun hc => h (.inr hc)⟩

theorem addNew_cases (env : Env K) (st : St K) (s : Nat) (k : K) (bs : Binds K) (ig : Option EndId) :
    ((addNew env st s k bs ig).1 = st ∧ (addNew env st s k bs ig).2 ≠ none) ∨
    (addNew env st s k bs ig = ({ st with data := st.data ++ [(s, k)] }, none) ∧ (s, k) ∉ st.data ∧ violates env s bs ig = false) := by
  unfold addNew
  split
  · exact .inl ⟨rfl, by simp⟩
  · rename_i h
    split
    · exact .inl ⟨rfl, by simp⟩
    · rename_i hv
      exact .inr ⟨rfl, h, by simpa using hv⟩

/-! ### Bindings keep what their steps keep -/

/-- If `fr` is set: every entity object refers to an entity that exists. -/
def There (fr : Bool) (st : St K) (x : Nat × K) : Prop := fr = true → x ∈ st.data

/-- Bindings with entity objects of entities that exist, if `fr` is set. -/
def FreshIf (env : Env K) (fr : Bool) (data : List (Nat × K)) (bs : Binds K) : Prop := fr = true → FreshBinds env data bs

mutual
theorem fresh_mono_bind (env : Env K) {data data' : List (Nat × K)} (h : ∀ x ∈ data, x ∈ data') (e : EndId) (b : Bind K)
    (hb : FreshBind env data e b) : FreshBind env data' e b := by
  cases b with
  | key j => trivial
  | old j => exact h _ hb
  | new j bs => exact fresh_mono env h bs hb
theorem fresh_mono (env : Env K) {data data' : List (Nat × K)} (h : ∀ x ∈ data, x ∈ data') (bs : Binds K)
    (hb : FreshBinds env data bs) : FreshBinds env data' bs := by
  cases bs with
  | nil => trivial
  | cons e b rest => exact ⟨fresh_mono_bind env h e b hb.1, fresh_mono env h rest hb.2⟩
end

/-- Everything that is kept by adding an entity and by linking is kept by handling bindings. -/
structure Steps (env : Env K) (fr : Bool) (P : St K → Prop) : Prop where
  good : ∀ st, P st → Good st
  add : ∀ st s k, P st → (s, k) ∉ st.data → P { st with data := st.data ++ [(s, k)] }
  link : ∀ st e k j, P st → env.isNav e = true → There fr st ((env.near e).set, k) → P (link env st e k j).1
  replace : ∀ st e k j, P st → env.isNav e = true → There fr st ((env.near e).set, k) → There fr st ((env.far e).set, j) →
    P (replace env st e k j).1

theorem bindOld_data {env : Env K} (henv : EnvOk env) {st : St K} (h : Good st) (e : EndId) (k j : K) :
    (bindOld env st e k j).1.data = st.data ∧ (bindOld env st e k j).1.deleting = st.deleting := by
  unfold bindOld
  split
  · exact link_data env st e k j
  · exact replace_data henv h e k j

theorem bindOld_keeps {env : Env K} {fr : Bool} {P : St K → Prop} (hP : Steps env fr P) (st : St K) (e : EndId) (k j : K) (h : P st)
    (hn : env.isNav e = true) (h1 : There fr st ((env.near e).set, k)) (h2 : There fr st ((env.far e).set, j)) :
    P (bindOld env st e k j).1 := by
  unfold bindOld
  split
  · exact hP.link st e k j h hn h1
  · exact hP.replace st e k j h hn h1 h2

mutual
theorem bind_keeps {env : Env K} (henv : EnvOk env) {fr : Bool} {P : St K → Prop} (hP : Steps env fr P) (st : St K) (e : EndId) (k : K)
    (b : Bind K) (h : P st) (hn : env.isNav e = true) (h1 : There fr st ((env.near e).set, k))
    (hb : fr = true → FreshBind env st.data e b) :
    P (bind env st e k b).1 ∧ (∀ x ∈ st.data, x ∈ (bind env st e k b).1.data) ∧ (bind env st e k b).1.deleting = st.deleting := by
  cases b with
  | key j =>
    simp only [bind]
    split
    · rename_i hm
      have hd := bindOld_data henv (hP.good _ h) e k j
      exact ⟨bindOld_keeps hP st e k j h hn h1 (fun _ => hm), by rw [hd.1]; exact fun _ h => h, hd.2⟩
    · exact ⟨h, fun _ h => h, rfl⟩
  | old j =>
    simp only [bind]
    have hd := bindOld_data henv (hP.good _ h) e k j
    refine ⟨bindOld_keeps hP st e k j h hn h1 ?_, by rw [hd.1]; exact fun _ h => h, hd.2⟩
    exact hb
  | new j bs =>
    simp only [bind]
    have hfb : FreshIf env fr st.data bs := hb
    have hins : P ((addNew env st (env.far e).set j bs (some e.other)).andThen fun st => binds env st (env.far e).set j bs).1 ∧
        (∀ x ∈ st.data, x ∈ ((addNew env st (env.far e).set j bs (some e.other)).andThen fun st => binds env st (env.far e).set j bs).1.data) ∧
        ((addNew env st (env.far e).set j bs (some e.other)).andThen fun st => binds env st (env.far e).set j bs).1.deleting = st.deleting := by
      rcases addNew_cases env st (env.far e).set j bs (some e.other) with ha | ha
      · cases hx : (addNew env st (env.far e).set j bs (some e.other)).2 with
        | none => exact absurd hx ha.2
        | some x =>
          unfold Res.andThen
          simp only [hx, ha.1]
          exact ⟨h, fun _ h => h, trivial⟩
      · rw [ha.1]
        unfold Res.andThen
        simp only
        have := binds_keeps henv hP { st with data := st.data ++ [((env.far e).set, j)] } (env.far e).set j bs
          (hP.add _ _ _ h ha.2.1) (fun _ => by simp)
          (fun hf => fresh_mono env (fun x hx => List.mem_append_left _ hx) bs (hfb hf))
        exact ⟨this.1, fun x hx => this.2.1 x (List.mem_append_left _ hx), this.2.2⟩
    generalize ((addNew env st (env.far e).set j bs (some e.other)).andThen fun st => binds env st (env.far e).set j bs) = r at hins ⊢
    unfold Res.andThen
    split
    · have hd := link_data env r.1 e k j
      exact ⟨hP.link _ e k j hins.1 hn (fun hf => hins.2.1 _ (h1 hf)), by rw [hd.1]; exact hins.2.1, by rw [hd.2]; exact hins.2.2⟩
    · exact hins
theorem binds_keeps {env : Env K} (henv : EnvOk env) {fr : Bool} {P : St K → Prop} (hP : Steps env fr P) (st : St K) (s : Nat) (k : K)
    (bs : Binds K) (h : P st) (h1 : There fr st (s, k)) (hb : FreshIf env fr st.data bs) :
    P (binds env st s k bs).1 ∧ (∀ x ∈ st.data, x ∈ (binds env st s k bs).1.data) ∧ (binds env st s k bs).1.deleting = st.deleting := by
  cases bs with
  | nil => exact ⟨h, fun _ h => h, rfl⟩
  | cons e b rest =>
    simp only [binds]
    split
    · rename_i hg
      have hfb : fr = true → FreshBind env st.data e b := fun hf => (hb hf).1
      have hfr : FreshIf env fr st.data rest := fun hf => (hb hf).2
      have hbind := bind_keeps henv hP st e k b h hg.2 (by rw [hg.1]; exact h1) hfb
      unfold Res.andThen
      split
      · have := binds_keeps henv hP (bind env st e k b).1 s k rest hbind.1 (fun hf => hbind.2.1 _ (h1 hf))
          (fun hf => fresh_mono env hbind.2.1 rest (hfr hf))
        exact ⟨this.1, fun x hx => this.2.1 x (hbind.2.1 x hx), by rw [this.2.2, hbind.2.2]⟩
      · exact hbind
    · exact ⟨h, fun _ h => h, rfl⟩
end

/-- Everything that is kept by adding an entity, by linking, by unlinking and by deleting is kept by every operation. -/
theorem run_keeps {env : Env K} (henv : EnvOk env) {fr : Bool} {P : St K → Prop} (hP : Steps env fr P)
    (hr : ∀ st e k j, P st → P (removeAt st e k j)) (hd : ∀ st d, P st → P { st with deleting := d })
    (he : ∀ st s k, P st → P (deleteEntity env s k st).1) (st : St K) (op : Op K) (h : P st) (hf : fr = true → Fresh env st op) :
    P (run env st op).1 := by
  cases op with
  | insert s k bs =>
    simp only [run, insert]
    rcases addNew_cases env st s k bs none with ha | ha
    · cases hx : (addNew env st s k bs none).2 with
      | none => exact absurd hx ha.2
      | some x => unfold Res.andThen; simp only [hx, ha.1]; exact h
    · rw [ha.1]
      unfold Res.andThen
      simp only
      exact (binds_keeps henv hP _ s k bs (hP.add _ _ _ h ha.2.1) (fun _ => by simp)
        (fun hfr => fresh_mono env (fun x hx => List.mem_append_left _ hx) bs (hf hfr))).1
  | update s k bs =>
    simp only [run, update]
    split
    · rename_i hm
      exact (binds_keeps henv hP st s k bs h (fun _ => hm) hf).1
    · exact h
  | delete s k => exact del_keeps env hr hd he _ _ _ _ h
  | link e k j =>
    simp only [run]
    split
    · rename_i hn; exact hP.link st e k j h hn hf
    · exact h
  | unlink e k j =>
    simp only [run]
    split
    · rcases unlink_cases (env := env) st e k j with hu | hu
      · rw [hu]; exact h
      · rw [hu.1]; exact hr _ _ _ _ h
    · exact h
  | replace e k j =>
    simp only [run]
    split
    · rename_i hn; exact hP.replace st e k j h hn (fun hfr => (hf hfr).1) (fun hfr => (hf hfr).2)
    · exact h
  | navInsert e k j bs =>
    simp only [run]
    split
    · rename_i hn
      exact (bind_keeps henv hP st e k (.new j bs) h hn (fun hfr => (hf hfr).1)
        (fun hfr => (hf hfr).2)).1
    · exact h

end Verif.MemLinks
