import Verif.Lemmas.MemLinks

/-!
# Properties of links between entities

C113: navigation in both directions agrees.  C114: links lead to entities that exist.  C115: multiplicities are not
exceeded.  C116: required links are there.  C117: deletion removes what depends on the entity and nothing else.  C118: what
fails changes nothing.  C119: concurrent linking.
-/

set_option linter.unusedVariables false
set_option linter.unusedSimpArgs false
set_option linter.unusedSectionVars false

namespace Verif.Props

open Verif.MemLinks Verif.Spec.MemLinks

variable {K : Type} [DecidableEq K]

/-! ### C113 -/

theorem good_empty : Good (empty : St K) := ⟨by simp [empty], by simp [empty], by simp [empty]⟩

theorem good_steps {env : Env K} (henv : EnvOk env) (fr : Bool) : Steps env fr (Good (K := K)) :=
  ⟨fun _ h => h, fun _ _ _ h _ => ⟨h.agree, h.fwd, h.rev⟩, fun _ e k j h _ _ => link_good henv h e k j,
    fun _ e k j h _ _ _ => replace_good henv h e k j⟩

theorem good_run {env : Env K} (henv : EnvOk env) (st : St K) (op : Op K) (h : Good st) : Good (run env st op).1 :=
  run_keeps henv (good_steps henv false) (fun _ e k j h => removeAt_good h e k j) (fun _ _ h => ⟨h.agree, h.fwd, h.rev⟩)
    (fun _ s k h => (deleteEntity_spec henv s k h).1) st op h (by simp)

theorem good_runs {env : Env K} (henv : EnvOk env) (ops : List (Op K)) (st : St K) (h : Good st) :
    Good (ops.foldl (fun st op => (run env st op).1) st) := by
  induction ops generalizing st with
  | nil => exact h
  | cons op ops ih => exact ih _ (good_run henv st op h)

theorem good_history {env : Env K} (henv : EnvOk env) (ops : List (Op K)) : Good (history env ops) :=
  good_runs henv ops empty good_empty

/-- C113. In every history, also with operations that fail and with objects of deleted entities: an entity lists another
exactly if the other lists it. -/
theorem links_both_ways (env : Env K) (henv : EnvOk env) (ops : List (Op K)) : BothWays env (history env ops) := by
  intro e k j
  unfold Linked
  rw [mem_getLinks henv (good_history henv ops), mem_getLinks henv (good_history henv ops), lk_other]

/-! ### Examples: containers given by a list of associations -/

/-- A container with these associations. -/
def listEnv (l : List Assoc) : Env Nat where
  assoc a := l.getD a ⟨⟨0, .many, false⟩, ⟨0, .many, false⟩⟩
  links s := ((List.range l.length).flatMap fun a => [(a, false), (a, true)]).filter fun e =>
    decide ((if e.2 then (l.getD e.1 ⟨⟨0, .many, false⟩, ⟨0, .many, false⟩⟩).toEnd
      else (l.getD e.1 ⟨⟨0, .many, false⟩, ⟨0, .many, false⟩⟩).fromEnd).set = s)
  ord l := l

theorem mem_listEnv (l : List Assoc) (s : Nat) (e : EndId) :
    e ∈ (listEnv l).links s ↔ e.1 < l.length ∧ ((listEnv l).near e).set = s := by
  obtain ⟨a, b⟩ := e
  simp only [listEnv, Env.near, List.mem_filter, List.mem_flatMap, List.mem_range, List.mem_cons, List.not_mem_nil, or_false,
    Prod.mk.injEq, decide_eq_true_eq]
  refine and_congr ?_ Iff.rfl
  constructor
  · rintro ⟨x, hx, (⟨h, _⟩ | ⟨h, _⟩)⟩ <;> rw [h] <;> exact hx
  · intro h
    refine ⟨a, h, ?_⟩
    cases b <;> simp

theorem listEnv_ok (l : List Assoc) (h1 : ∀ x ∈ l, x.toEnd.nav = true → x.fromEnd.nav = true)
    (h2 : ∀ s e e', e ∈ (listEnv l).links s → e' ∈ (listEnv l).links s → ((listEnv l).near e).nav = false →
      ((listEnv l).near e').nav = false → ((listEnv l).far e).mult = .one → ((listEnv l).far e').mult = .one → e = e') :
    EnvOk (listEnv l) := by
  refine ⟨fun l => List.Perm.refl _, fun s e h => ((mem_listEnv l s e).mp h).2, ?_, ?_, h2⟩
  · intro s e h
    rw [mem_listEnv] at h ⊢
    exact ⟨h.1, by rw [near_other]⟩
  · intro a
    simp only [listEnv]
    by_cases ha : a < l.length
    · rw [List.getD_eq_getElem?_getD, List.getElem?_eq_getElem ha]
      exact h1 _ (List.getElem_mem ha)
    · rw [List.getD_eq_getElem?_getD, List.getElem?_eq_none (by omega)]
      simp

/-- All ends have navigation properties: there is no unbound principal. -/
theorem listEnv_nav (l : List Assoc) (h : ∀ x ∈ l, x.fromEnd.nav = true ∧ x.toEnd.nav = true) : EnvOk (listEnv l) := by
  refine listEnv_ok l (fun x hx _ => (h x hx).1) ?_
  intro s e e' he _ hn
  obtain ⟨a, b⟩ := e
  have ha := ((mem_listEnv l s (a, b)).mp he).1
  simp only [Env.near, listEnv] at hn
  rw [List.getD_eq_getElem?_getD, List.getElem?_eq_getElem ha] at hn
  have := h _ (List.getElem_mem ha)
  cases b <;> simp [this] at hn

/-- Orders (set 0) belong to exactly one customer (set 1); customers may have one passport (set 2), and each passport may
belong to a customer. -/
def shop : Env Nat := listEnv [⟨⟨0, .many, true⟩, ⟨1, .one, true⟩⟩, ⟨⟨1, .zeroOne, true⟩, ⟨2, .zeroOne, true⟩⟩]

theorem shop_ok : EnvOk shop := listEnv_nav _ (by decide)

/-- Non-vacuity of `links_both_ways` and others: a customer inserted together with two orders. -/
theorem links_hypotheses :
    let ops := [Op.insert 1 7 (.cons (0, true) (.new 1 .nil) (.cons (0, true) (.new 2 .nil) .nil))]
    (history shop ops).data = [(1, 7), (0, 1), (0, 2)] ∧ getLinks shop (history shop ops) (0, true) 7 = [1, 2] ∧
      getLinks shop (history shop ops) (0, false) 2 = [7] := by
  decide +kernel

/-! ### C114 -/

/-- Links are between existing entities, at ends with an index. -/
structure LinkSound (env : Env K) (st : St K) : Prop where
  good : Good st
  ends : ∀ e k j, Lk st e k j → e ∈ env.links (env.near e).set ∧ (env.assoc e.1).indexed = true
  near : ∀ e k j, Lk st e k j → ((env.near e).set, k) ∈ st.data

theorem LinkSound.far {env : Env K} {st : St K} (h : LinkSound env st) (e : EndId) (k j : K) (hl : Lk st e k j) :
    ((env.far e).set, j) ∈ st.data := by
  have := h.near e.other j k ((lk_other _ _ _ _).mpr hl)
  rwa [near_other] at this

theorem isNav_valid {env : Env K} (henv : EnvOk env) (e : EndId) (h : env.isNav e = true) :
    e ∈ env.links (env.near e).set ∧ (env.assoc e.1).indexed = true ∧ e.other ∈ env.links (env.near e.other).set := by
  unfold Env.isNav at h
  simp only [Bool.and_eq_true, List.contains_iff_mem] at h
  refine ⟨h.1, ?_, by rw [near_other]; exact henv.pair _ _ h.1⟩
  unfold Assoc.indexed
  obtain ⟨a, b⟩ := e
  cases b
  · exact h.2
  · exact henv.first a h.2

/-- Adding a link between existing entities. -/
theorem sound_add {env : Env K} (henv : EnvOk env) {st : St K} (h : LinkSound env st) (e : EndId) (k j : K) (hn : env.isNav e = true)
    (h1 : ((env.near e).set, k) ∈ st.data) (h2 : ((env.far e).set, j) ∈ st.data) (e' : EndId) (k' j' : K)
    (hl : Lk st e' k' j' ∨ (e' = e ∧ k' = k ∧ j' = j) ∨ (e' = e.other ∧ k' = j ∧ j' = k)) :
    (e' ∈ env.links (env.near e').set ∧ (env.assoc e'.1).indexed = true) ∧ ((env.near e').set, k') ∈ st.data := by
  have hv := isNav_valid henv e hn
  rcases hl with hl | ⟨q1, q2, q3⟩ | ⟨q1, q2, q3⟩
  · exact ⟨h.ends _ _ _ hl, h.near _ _ _ hl⟩
  · subst q1 q2 q3
    exact ⟨⟨hv.1, hv.2.1⟩, h1⟩
  · subst q1 q2 q3
    exact ⟨⟨hv.2.2, hv.2.1⟩, by rw [near_other]; exact h2⟩

theorem sound_link {env : Env K} (henv : EnvOk env) {st : St K} (h : LinkSound env st) (e : EndId) (k j : K) (hn : env.isNav e = true)
    (h1 : ((env.near e).set, k) ∈ st.data) : LinkSound env (link env st e k j).1 := by
  rcases link_cases henv h.good e k j with hc | hc
  · rw [hc.1]; exact h
  · rw [hc.1]
    have hd := addAt_data st e k j
    refine ⟨addAt_good h.good _ _ _, ?_, ?_⟩
    · intro e' k' j' hl
      exact (sound_add henv h e k j hn h1 hc.2.1 e' k' j' ((lk_addAt _ _ _ _ _ _ _).mp hl)).1
    · intro e' k' j' hl
      simp only
      rw [hd.1]
      exact (sound_add henv h e k j hn h1 hc.2.1 e' k' j' ((lk_addAt _ _ _ _ _ _ _).mp hl)).2

theorem sound_steps {env : Env K} (henv : EnvOk env) : Steps env true (LinkSound env) := by
  refine ⟨fun _ h => h.good, ?_, ?_, ?_⟩
  · intro st s k h _
    exact ⟨⟨h.good.agree, h.good.fwd, h.good.rev⟩, h.ends, fun e k j hl => List.mem_append_left _ (h.near e k j hl)⟩
  · intro st e k j h hn h1
    exact sound_link henv h e k j hn (h1 rfl)
  · intro st e k j h hn h1 h2
    rcases replace_cases henv h.good e k j with hc | hc | hc
    · rw [hc.1]; exact h
    · rw [hc.1]; exact sound_link henv h e k j hn (h1 rfl)
    · have key : ∀ e' k' j', Lk (replace env st e k j).1 e' k' j' →
          Lk st e' k' j' ∨ (e' = e ∧ k' = k ∧ j' = j) ∨ (e' = e.other ∧ k' = j ∧ j' = k) := by
        intro e' k' j' hl
        rcases (hc.2.2.2.2.2 e' k' j').mp hl with hl | hl | hl
        · exact .inl hl.1
        · exact .inr (.inl hl)
        · exact .inr (.inr hl)
      refine ⟨hc.2.2.1, ?_, ?_⟩
      · intro e' k' j' hl
        exact (sound_add henv h e k j hn (h1 rfl) (h2 rfl) e' k' j' (key _ _ _ hl)).1
      · intro e' k' j' hl
        rw [hc.2.2.2.1]
        exact (sound_add henv h e k j hn (h1 rfl) (h2 rfl) e' k' j' (key _ _ _ hl)).2

theorem sound_deleteEntity {env : Env K} (henv : EnvOk env) {st : St K} (s : Nat) (k : K) (h : LinkSound env st) :
    LinkSound env (deleteEntity env s k st).1 := by
  obtain ⟨h1, h2, h3, h4, _, h5⟩ := deleteEntity_spec henv s k h.good
  refine ⟨h1, fun e k j hl => h.ends e k j ((h5 _ _ _).mp hl).1, ?_⟩
  intro e k' j hl
  obtain ⟨hl, hno⟩ := (h5 _ _ _).mp hl
  rw [h2, List.mem_filter]
  refine ⟨h.near e k' j hl, ?_⟩
  simp only [Bool.not_eq_true', decide_eq_false_iff_not, Prod.mk.injEq]
  rintro ⟨q1, q2⟩
  have hv := h.ends e k' j hl
  exact hno ⟨e, by rw [← q1]; exact hv.1, hv.2, .inl ⟨rfl, q2⟩⟩

theorem sound_removeAt {env : Env K} {st : St K} (h : LinkSound env st) (e : EndId) (k j : K) : LinkSound env (removeAt st e k j) := by
  have hs := removeAt_shrinks h.good e k j
  refine ⟨hs.good, fun e' k' j' hl => h.ends _ _ _ (hs.links _ _ _ hl), fun e' k' j' hl => ?_⟩
  rw [(removeAt_data st e k j).1]
  exact h.near _ _ _ (hs.links _ _ _ hl)

theorem sound_run {env : Env K} (henv : EnvOk env) (st : St K) (op : Op K) (h : LinkSound env st) (hf : Fresh env st op) :
    LinkSound env (run env st op).1 :=
  run_keeps henv (sound_steps henv) (fun _ e k j h => sound_removeAt h e k j)
    (fun _ _ h => ⟨⟨h.good.agree, h.good.fwd, h.good.rev⟩, h.ends, h.near⟩) (fun _ s k h => sound_deleteEntity henv s k h) st op h
    (fun _ => hf)

theorem sound_empty (env : Env K) : LinkSound env (empty : St K) :=
  ⟨good_empty, by intro e k j h; simp [Lk, empty] at h, by intro e k j h; simp [Lk, empty] at h⟩

theorem sound_runs {env : Env K} (henv : EnvOk env) (ops : List (Op K)) (st : St K) (h : LinkSound env st) (hf : FreshAll env st ops) :
    LinkSound env (ops.foldl (fun st op => (run env st op).1) st) := by
  induction ops generalizing st with
  | nil => exact h
  | cons op ops ih => exact ih _ (sound_run henv st op h hf.1) hf.2

theorem sound_linked {env : Env K} (henv : EnvOk env) {st : St K} (h : LinkSound env st) : NoDangling env st := by
  intro e k j hl
  unfold Linked at hl
  rw [mem_getLinks henv h.good] at hl
  exact ⟨h.near e k j hl, h.far e k j hl⟩

/-- C114, partial. In every history in which no object of a deleted entity is used (whether operations succeed or fail),
links are between entities that exist.  Missing: objects of deleted entities (`dangling_refuted`). -/
theorem no_dangling_partial (env : Env K) (henv : EnvOk env) (ops : List (Op K)) (hf : FreshAll env empty ops) :
    NoDangling env (history env ops) :=
  sound_linked henv (sound_runs henv ops empty (sound_empty env) hf)

/-- C114, refuted. Through the object of a deleted customer an order is linked to the customer that is no longer there. -/
theorem dangling_refuted :
    let ops := [Op.insert 1 7 (.cons (0, true) (.new 1 .nil) .nil), .insert 1 8 .nil, .insert 2 5 .nil, .delete 1 8,
      .link (1, false) 8 5]
    ¬ NoDangling shop (history shop ops) := by
  intro ops h
  have := (h (1, false) 8 5 (by unfold Linked; decide +kernel)).1
  revert this
  decide +kernel

/-- Non-vacuity of `no_dangling_partial`. -/
theorem no_dangling_hypotheses :
    FreshAll shop empty [Op.insert 1 7 (.cons (0, true) (.new 1 .nil) .nil), .insert 2 5 .nil, .link (1, false) 7 5,
      .update 1 7 (.cons (1, false) (.old 5) .nil), .delete 1 7] := by
  refine ⟨⟨trivial, trivial⟩, trivial, ?_, ⟨?_, trivial⟩, trivial, trivial⟩
  · show ((1, 7) : Nat × Nat) ∈ _
    decide +kernel
  · show ((2, 5) : Nat × Nat) ∈ _
    decide +kernel

/-! ### C115 -/

/-- The ends whose multiplicity the code always observes. -/
def Bounded (env : Env K) (e : EndId) : Prop :=
  (env.near e).mult = .one ∨ ((env.near e).mult = .zeroOne ∧ env.isNav e = false)

/-- At these ends there is at most one entity. -/
structure AtMost (env : Env K) (st : St K) : Prop where
  good : Good st
  one : ∀ e, Bounded env e → ∀ k k' j, Lk st e k j → Lk st e k' j → k = k'

theorem atMost_shrink {env : Env K} {st st' : St K} (h : AtMost env st) (hg : Good st')
    (hl : ∀ e k j, Lk st' e k j → Lk st e k j) : AtMost env st' :=
  ⟨hg, fun e hb k k' j h1 h2 => h.one e hb k k' j (hl _ _ _ h1) (hl _ _ _ h2)⟩

theorem atMost_link {env : Env K} (henv : EnvOk env) {st : St K} (h : AtMost env st) (e : EndId) (k j : K) :
    AtMost env (link env st e k j).1 := by
  rcases link_cases henv h.good e k j with hc | hc
  · rw [hc.1]; exact h
  · rw [hc.1]
    refine ⟨addAt_good h.good _ _ _, ?_⟩
    intro e' hb x y z h1 h2
    have hne : ∀ e0 : EndId, Bounded env e0 → (env.near e0).mult ≠ .many := by
      intro e0 hb he
      rcases hb with hb | hb
      · rw [he] at hb; cases hb
      · rw [he] at hb; cases hb.1
    have hnone : ∀ x z, (e' = e ∧ z = j) ∨ (e' = e.other ∧ z = k) → ¬ Lk st e' x z := by
      rintro x z (⟨q1, q2⟩ | ⟨q1, q2⟩) hl
      · subst q1 q2
        exact hc.2.2.2 (hne _ hb) _ hl
      · subst q1 q2
        have hm : (env.far e).mult ≠ .many := by rw [← near_other]; exact hne _ hb
        exact hc.2.2.1 hm x ((lk_other _ _ _ _).mp hl)
    rw [lk_addAt] at h1 h2
    rcases h1 with h1 | ⟨a1, a2, a3⟩ | ⟨a1, a2, a3⟩ <;> rcases h2 with h2 | ⟨b1, b2, b3⟩ | ⟨b1, b2, b3⟩
    · exact h.one e' hb _ _ _ h1 h2
    · exact absurd h1 (hnone _ _ (.inl ⟨b1, b3⟩))
    · exact absurd h1 (hnone _ _ (.inr ⟨b1, b3⟩))
    · exact absurd h2 (hnone _ _ (.inl ⟨a1, a3⟩))
    · rw [a2, b2]
    · exact absurd (a1.symm.trans b1).symm (other_ne e)
    · exact absurd h2 (hnone _ _ (.inr ⟨a1, a3⟩))
    · exact absurd (b1.symm.trans a1).symm (other_ne e)
    · rw [a2, b2]

theorem atMost_steps {env : Env K} (henv : EnvOk env) : Steps env false (AtMost env) := by
  refine ⟨fun _ h => h.good, fun _ _ _ h _ => ⟨⟨h.good.agree, h.good.fwd, h.good.rev⟩, h.one⟩, fun _ e k j h _ _ => atMost_link henv h e k j, ?_⟩
  intro st e k j h hn _ _
  rcases replace_cases henv h.good e k j with hc | hc | hc
  · rw [hc.1]; exact h
  · rw [hc.1]; exact atMost_link henv h e k j
  · refine ⟨hc.2.2.1, ?_⟩
    intro e' hb x y z h1 h2
    have hne : e' ≠ e := by
      intro he
      subst he
      rcases hb with hb | hb
      · exact hc.1 hb
      · rw [hb.2] at hn; cases hn
    rcases (hc.2.2.2.2.2 _ _ _).mp h1 with h1 | h1 | h1
    · rcases (hc.2.2.2.2.2 _ _ _).mp h2 with h2 | h2 | h2
      · exact h.one e' hb _ _ _ h1.1 h2.1
      · exact absurd h2.1 hne
      · exact absurd ⟨h2.1, h2.2.2⟩ h1.2.2
    · exact absurd h1.1 hne
    · rcases (hc.2.2.2.2.2 _ _ _).mp h2 with h2 | h2 | h2
      · exact absurd ⟨h1.1, h1.2.2⟩ h2.2.2
      · exact absurd h2.1 hne
      · rw [h1.2.1, h2.2.1]

theorem atMost_run {env : Env K} (henv : EnvOk env) (st : St K) (op : Op K) (h : AtMost env st) : AtMost env (run env st op).1 :=
  run_keeps henv (atMost_steps henv) (fun st e k j h => atMost_shrink h (removeAt_good h.good e k j) (removeAt_shrinks h.good e k j).links)
    (fun _ _ h => ⟨⟨h.good.agree, h.good.fwd, h.good.rev⟩, h.one⟩)
    (fun st s k h => atMost_shrink h (deleteEntity_spec henv s k h.good).1 (deleteEntity_shrinks henv s k h.good).links) st op h (by simp)

theorem atMost_runs {env : Env K} (henv : EnvOk env) (ops : List (Op K)) (st : St K) (h : AtMost env st) :
    AtMost env (ops.foldl (fun st op => (run env st op).1) st) := by
  induction ops generalizing st with
  | nil => exact h
  | cons op ops ih => exact ih _ (atMost_run henv st op h)

theorem length_le_one {α : Type} (l : List α) (hn : l.Nodup) (h : ∀ x ∈ l, ∀ y ∈ l, x = y) : l.length ≤ 1 := by
  match l, hn, h with
  | [], _, _ => simp
  | [_], _, _ => simp
  | x :: y :: l, hn, h =>
    have := h x (by simp) y (by simp)
    subst this
    simp at hn

/-- C115, partial. In every history, whatever fails and whatever objects are used: there is at most one entity at an end
with multiplicity 1, and at an end with multiplicity 0..1 that has no navigation property.  Missing: ends with
multiplicity 0..1 and a navigation property (`multiplicity_refuted`). -/
theorem multiplicity_partial (env : Env K) (henv : EnvOk env) (ops : List (Op K)) (e : EndId)
    (he : (env.near e).mult = .one ∨ ((env.near e).mult = .zeroOne ∧ env.isNav e = false)) : AtMostOne env (history env ops) e := by
  have h : AtMost env (history env ops) := atMost_runs henv ops empty ⟨good_empty, by intro e _ k k' j h; simp [Lk, empty] at h⟩
  intro j
  refine length_le_one _ (nodup_getLinks henv h.good _ _) ?_
  intro x hx y hy
  rw [mem_getLinks henv h.good, lk_other] at hx hy
  exact h.one e he x y j hx hy

/-- C115, refuted. The passport of one customer is given to another by an update, which does not ask whether it has been
given already: it then belongs to both. -/
theorem multiplicity_refuted :
    let ops := [Op.insert 1 7 .nil, .insert 1 8 .nil, .insert 2 5 .nil, .update 1 7 (.cons (1, false) (.key 5) .nil),
      .update 1 8 (.cons (1, false) (.key 5) .nil)]
    (shop.near (1, false)).mult = .zeroOne ∧ getLinks shop (history shop ops) (1, true) 5 = [7, 8] := by
  refine ⟨rfl, ?_⟩
  decide +kernel

/-- Non-vacuity of `multiplicity_partial`: an order is refused a second customer. -/
theorem multiplicity_hypotheses :
    let st := history shop [Op.insert 1 7 (.cons (0, true) (.new 1 .nil) .nil), .insert 1 8 .nil]
    (shop.near (0, true)).mult = .one ∧ (run shop st (.link (0, true) 8 1)).2 = some .navConstraint ∧
      (run shop st (.insert 0 2 .nil)).2 = some .navConstraint := by
  refine ⟨rfl, ?_, ?_⟩ <;> decide +kernel

/-! ### Deletion -/

/-- An entity is gone, or will be. -/
def Gone (st st' : St K) (x : Nat × K) : Prop := x ∉ st'.data ∨ x ∈ st.deleting

/-- What a successful deletion keeps. -/
structure Proper (env : Env K) (st st' : St K) : Prop where
  shrinks : Shrinks st st'
  needs : ∀ e i j, (env.near e).mult = .one → Lk st e i j → Lk st' e i j ∨ Gone st st' ((env.far e).set, j)
  links : ∀ e i j, Lk st e i j → Lk st' e i j ∨ Gone st st' ((env.near e).set, i) ∨ Gone st st' ((env.far e).set, j)

theorem Proper.refl {env : Env K} {st : St K} (h : Good st) : Proper env st st :=
  ⟨.refl h, fun _ _ _ _ h => .inl h, fun _ _ _ h => .inl h⟩

theorem gone_mono {a b c : St K} (hs : Shrinks b c) {x : Nat × K} (h : Gone a b x) : Gone a c x := by
  rcases h with h | h
  · exact .inl fun hc => h (hs.data.subset hc)
  · exact .inr h

theorem gone_back {a b c : St K} (hs : Shrinks a b) {x : Nat × K} (h : Gone b c x) : Gone a c x := by
  rcases h with h | h
  · exact .inl h
  · exact .inr (by rw [← hs.deleting]; exact h)

theorem Proper.trans {env : Env K} {a b c : St K} (h : Proper env a b) (h2 : Proper env b c) : Proper env a c := by
  refine ⟨h.shrinks.trans h2.shrinks, ?_, ?_⟩
  · intro e i j hm hl
    rcases h.needs e i j hm hl with hl | hg
    · rcases h2.needs e i j hm hl with hl | hg
      · exact .inl hl
      · exact .inr (gone_back h.shrinks hg)
    · exact .inr (gone_mono h2.shrinks hg)
  · intro e i j hl
    rcases h.links e i j hl with hl | hg | hg
    · rcases h2.links e i j hl with hl | hg | hg
      · exact .inl hl
      · exact .inr (.inl (gone_back h.shrinks hg))
      · exact .inr (.inr (gone_back h.shrinks hg))
    · exact .inr (.inl (gone_mono h2.shrinks hg))
    · exact .inr (.inr (gone_mono h2.shrinks hg))

/-- The index and direction used for an end are its own, if no association requires an entity of its own set at its second
end. -/
theorem delEnds_dir {env : Env K} (henv : EnvOk env) (hself : NoSelfRequired env) (s : Nat) (e : EndId) (he : e ∈ env.links s)
    (hm : (env.near e).mult = .one) :
    ((env.assoc e.1).fromEnd.set = s → (e.1, false) = e ∧ (env.assoc e.1).toEnd.set = (env.far e).set) ∧
    ((env.assoc e.1).fromEnd.set ≠ s → (e.1, true) = e ∧ (env.assoc e.1).fromEnd.set = (env.far e).set) := by
  have hn := henv.near s e he
  obtain ⟨a, b⟩ := e
  cases b
  · exact ⟨fun _ => ⟨rfl, rfl⟩, fun h => absurd hn h⟩
  · refine ⟨fun h => absurd hm ?_, fun _ => ⟨rfl, rfl⟩⟩
    exact hself a (h.trans hn.symm)

theorem delKeys_proper {env : Env K} {dl : St K → Nat → K → Res K}
    (hd : ∀ st s k, Good st → (dl st s k).2 = none → Proper env st (dl st s k).1 ∧ Gone st (dl st s k).1 (s, k))
    (e : EndId) (k : K) (nav : Bool) (js : List K) (st : St K) (h : Good st) (hk : ((env.near e).set, k) ∈ st.deleting)
    (hr : (delKeys dl e (env.far e).set nav k js st).2 = none) :
    Proper env st (delKeys dl e (env.far e).set nav k js st).1 ∧
      ∀ j ∈ js, ¬ Lk (delKeys dl e (env.far e).set nav k js st).1 e k j := by
  induction js generalizing st with
  | nil => exact ⟨.refl h, by simp⟩
  | cons j js ih =>
    simp only [delKeys] at hr ⊢
    split at hr
    · cases hr
    · rename_i hc
      rw [if_neg hc]
      obtain ⟨h1, h2, h3⟩ := andThen_none hr
      rw [h3]
      have hs := removeAt_shrinks h e k j
      obtain ⟨hp, hg⟩ := hd _ _ _ hs.good h1
      have hfirst : Proper env st (dl (removeAt st e k j) (env.far e).set j).1 := by
        have hgj : Gone st (dl (removeAt st e k j) (env.far e).set j).1 ((env.far e).set, j) := gone_back hs hg
        have hgk : Gone st (dl (removeAt st e k j) (env.far e).set j).1 ((env.near e).set, k) := .inr hk
        refine ⟨hs.trans hp.shrinks, ?_, ?_⟩
        · intro e' i' j' hm hl
          by_cases hx : Lk (removeAt st e k j) e' i' j'
          · rcases hp.needs e' i' j' hm hx with hy | hy
            · exact .inl hy
            · exact .inr (gone_back hs hy)
          · rw [lk_removeAt] at hx
            have : (e' = e ∧ i' = k ∧ j' = j) ∨ (e' = e.other ∧ i' = j ∧ j' = k) :=
              Classical.byContradiction fun hn => hx ⟨hl, fun a => hn (.inl a), fun a => hn (.inr a)⟩
            rcases this with ⟨q1, q2, q3⟩ | ⟨q1, q2, q3⟩
            · subst q1 q2 q3; exact .inr hgj
            · subst q1 q2 q3; rw [far_other]; exact .inr hgk
        · intro e' i' j' hl
          by_cases hx : Lk (removeAt st e k j) e' i' j'
          · rcases hp.links e' i' j' hx with hy | hy | hy
            · exact .inl hy
            · exact .inr (.inl (gone_back hs hy))
            · exact .inr (.inr (gone_back hs hy))
          · rw [lk_removeAt] at hx
            have : (e' = e ∧ i' = k ∧ j' = j) ∨ (e' = e.other ∧ i' = j ∧ j' = k) :=
              Classical.byContradiction fun hn => hx ⟨hl, fun a => hn (.inl a), fun a => hn (.inr a)⟩
            rcases this with ⟨q1, q2, q3⟩ | ⟨q1, q2, q3⟩
            · subst q1 q2 q3; exact .inr (.inl hgk)
            · subst q1 q2 q3; rw [far_other]; exact .inr (.inr hgk)
      obtain ⟨hp2, hj2⟩ := ih _ hfirst.shrinks.good (by rw [hfirst.shrinks.deleting]; exact hk) h2
      refine ⟨hfirst.trans hp2, ?_⟩
      intro i hi
      rcases List.mem_cons.mp hi with hi | hi
      · subst hi
        intro hl
        have := hp.shrinks.links _ _ _ (hp2.shrinks.links _ _ _ hl)
        rw [lk_removeAt] at this
        exact this.2.1 ⟨rfl, rfl, rfl⟩
      · exact hj2 i hi

theorem delEnds_proper {env : Env K} (henv : EnvOk env) (hself : NoSelfRequired env) {dl : St K → Nat → K → Res K}
    (hd : ∀ st s k, Good st → (dl st s k).2 = none → Proper env st (dl st s k).1 ∧ Gone st (dl st s k).1 (s, k))
    (s : Nat) (k : K) (es : List EndId) (hes : ∀ e ∈ es, e ∈ env.links s) (st : St K) (h : Good st) (hk : (s, k) ∈ st.deleting)
    (hr : (delEnds env dl s k es st).2 = none) :
    Proper env st (delEnds env dl s k es st).1 ∧
      ∀ e ∈ es, (env.near e).mult = .one → ∀ j, ¬ Lk (delEnds env dl s k es st).1 e k j := by
  induction es generalizing st with
  | nil => exact ⟨.refl h, by simp⟩
  | cons e es ih =>
    simp only [delEnds] at hr ⊢
    obtain ⟨h1, h2, h3⟩ := andThen_none hr
    rw [h3]
    have hel := hes e (by simp)
    have hnear := henv.near s e hel
    have hfirst : Proper env st (if (env.near e).mult = .one then
        if (env.assoc e.1).indexed then
          if (env.assoc e.1).fromEnd.set = s then delKeys dl (e.1, false) (env.assoc e.1).toEnd.set (env.near e).nav k (getLinks env st (e.1, false) k) st
          else delKeys dl (e.1, true) (env.assoc e.1).fromEnd.set (env.near e).nav k (getLinks env st (e.1, true) k) st
        else (st, some .attribute)
      else (st, none)).1 ∧ ((env.near e).mult = .one → ∀ j, ¬ Lk (if (env.near e).mult = .one then
        if (env.assoc e.1).indexed then
          if (env.assoc e.1).fromEnd.set = s then delKeys dl (e.1, false) (env.assoc e.1).toEnd.set (env.near e).nav k (getLinks env st (e.1, false) k) st
          else delKeys dl (e.1, true) (env.assoc e.1).fromEnd.set (env.near e).nav k (getLinks env st (e.1, true) k) st
        else (st, some .attribute)
      else (st, none)).1 e k j) := by
      by_cases hm : (env.near e).mult = .one
      · rw [if_pos hm] at h1 ⊢
        by_cases hi : (env.assoc e.1).indexed = true
        · rw [if_pos hi] at h1 ⊢
          have hdir := delEnds_dir henv hself s e hel hm
          have fin : ∀ st', Shrinks st st' → (∀ j ∈ getLinks env st e k, ¬ Lk st' e k j) → ∀ j, ¬ Lk st' e k j := by
            intro st' hs hn j hl
            exact hn j ((mem_getLinks henv h e k j).mpr (hs.links _ _ _ hl)) hl
          by_cases hf : (env.assoc e.1).fromEnd.set = s
          · rw [if_pos hf] at h1 ⊢
            obtain ⟨q1, q2⟩ := hdir.1 hf
            rw [q1, q2] at h1 ⊢
            obtain ⟨p1, p2⟩ := delKeys_proper hd e k _ _ st h (by rw [hnear]; exact hk) h1
            exact ⟨p1, fun _ => fin _ p1.shrinks p2⟩
          · rw [if_neg hf] at h1 ⊢
            obtain ⟨q1, q2⟩ := hdir.2 hf
            rw [q1, q2] at h1 ⊢
            obtain ⟨p1, p2⟩ := delKeys_proper hd e k _ _ st h (by rw [hnear]; exact hk) h1
            exact ⟨p1, fun _ => fin _ p1.shrinks p2⟩
        · rw [if_neg hi] at h1
          cases h1
      · rw [if_neg hm]
        exact ⟨.refl h, fun hc => absurd hc hm⟩
    generalize (if (env.near e).mult = .one then
        if (env.assoc e.1).indexed then
          if (env.assoc e.1).fromEnd.set = s then delKeys dl (e.1, false) (env.assoc e.1).toEnd.set (env.near e).nav k (getLinks env st (e.1, false) k) st
          else delKeys dl (e.1, true) (env.assoc e.1).fromEnd.set (env.near e).nav k (getLinks env st (e.1, true) k) st
        else (st, some .attribute)
      else (st, none)) = r at hfirst h2 ⊢
    obtain ⟨p1, p2⟩ := ih (fun x hx => hes x (List.mem_cons_of_mem _ hx)) r.1 hfirst.1.shrinks.good
      (by rw [hfirst.1.shrinks.deleting]; exact hk) h2
    refine ⟨hfirst.1.trans p1, ?_⟩
    intro x hx hm j hl
    rcases List.mem_cons.mp hx with hx | hx
    · subst hx
      exact hfirst.2 hm j (p1.shrinks.links _ _ _ hl)
    · exact p2 x hx hm j hl

theorem del_proper {env : Env K} (henv : EnvOk env) (hself : NoSelfRequired env) (n : Nat) (st : St K) (s : Nat) (k : K) (h : Good st)
    (hr : (del env n st s k).2 = none) : Proper env st (del env n st s k).1 ∧ Gone st (del env n st s k).1 (s, k) := by
  induction n generalizing st s k with
  | zero => simp [del] at hr
  | succ n ih =>
    have hshr := del_shrinks henv (n + 1) st s k h
    simp only [del] at hr hshr ⊢
    split at hr
    · rename_i hin
      rw [if_pos hin]
      exact ⟨.refl h, .inr hin⟩
    · rename_i hin
      rw [if_neg hin] at hshr ⊢
      split at hr
      · cases hr
      · rename_i hda
        rw [if_neg hda] at hshr ⊢
        have hda : (s, k) ∈ st.data := Classical.byContradiction hda
        simp only at hr
        obtain ⟨h1, h2, h3⟩ := andThen_none hr
        rw [h3] at hshr ⊢
        let st0 : St K := { st with deleting := (s, k) :: st.deleting }
        have h0 : Good st0 := ⟨h.agree, h.fwd, h.rev⟩
        obtain ⟨p1, p2⟩ := delEnds_proper henv hself ih s k (env.links s) (fun _ h => h) st0 h0 (by simp [st0]) h1
        obtain ⟨g1, g2, g3, g4, _, g5⟩ := deleteEntity_spec henv s k p1.shrinks.good
        have hgone : (s, k) ∉ (deleteEntity env s k (delEnds env (del env n) s k (env.links s) st0).1).1.data := by
          rw [g2]; simp
        have hsub : ∀ x, x ∈ (deleteEntity env s k (delEnds env (del env n) s k (env.links s) st0).1).1.data →
            x ∈ (delEnds env (del env n) s k (env.links s) st0).1.data := by
          intro x hx; rw [g2] at hx; exact (List.mem_filter.mp hx).1
        have up : ∀ x, Gone st0 (delEnds env (del env n) s k (env.links s) st0).1 x →
            Gone st (deleteEntity env s k (delEnds env (del env n) s k (env.links s) st0).1).1 x := by
          rintro x (hx | hx)
          · exact .inl fun hc => hx (hsub x hc)
          · rcases List.mem_cons.mp hx with hx | hx
            · subst hx; exact .inl hgone
            · exact .inr hx
        refine ⟨⟨hshr, ?_, ?_⟩, .inl hgone⟩
        · intro e i j hm hl
          rcases p1.needs e i j hm hl with hl2 | hg
          · by_cases hx : ∃ e0 ∈ env.links s, (env.assoc e0.1).indexed = true ∧ ((e = e0 ∧ i = k) ∨ (e = e0.other ∧ j = k))
            · obtain ⟨e0, he0, _, ⟨q1, q2⟩ | ⟨q1, q2⟩⟩ := hx
              · subst q1 q2
                exact absurd hl2 (p2 e he0 hm j)
              · subst q1 q2
                right; left
                rw [far_other, henv.near s e0 he0]
                exact hgone
            · exact .inl ((g5 e i j).mpr ⟨hl2, hx⟩)
          · exact .inr (up _ hg)
        · intro e i j hl
          rcases p1.links e i j hl with hl2 | hg | hg
          · by_cases hx : ∃ e0 ∈ env.links s, (env.assoc e0.1).indexed = true ∧ ((e = e0 ∧ i = k) ∨ (e = e0.other ∧ j = k))
            · obtain ⟨e0, he0, _, ⟨q1, q2⟩ | ⟨q1, q2⟩⟩ := hx
              · subst q1 q2
                right; left; left
                rw [henv.near s e he0]
                exact hgone
              · subst q1 q2
                right; right; left
                rw [far_other, henv.near s e0 he0]
                exact hgone
            · exact .inl ((g5 e i j).mpr ⟨hl2, hx⟩)
          · exact .inr (.inl (up _ hg))
          · exact .inr (.inr (up _ hg))

/-! Only what depends on the entity is removed. -/

theorem linked_shrinks {env : Env K} (henv : EnvOk env) {st st' : St K} (h : Good st) (hs : Shrinks st st') (e : EndId) (k j : K)
    (hl : Linked env st' e k j) : Linked env st e k j := by
  unfold Linked at hl ⊢
  rw [mem_getLinks henv hs.good] at hl
  rw [mem_getLinks henv h]
  exact hs.links _ _ _ hl

theorem dependent_links {env : Env K} {st st' : St K} (hs : ∀ e k j, Linked env st' e k j → Linked env st e k j) {x y : Nat × K}
    (hd : Dependent env st' x y) : Dependent env st x y := by
  induction hd with
  | self => exact .self
  | step _ hn ih =>
    obtain ⟨e, he, hm, hy, hl⟩ := hn
    exact .step ih ⟨e, he, hm, hy, hs e _ _ hl⟩

theorem dependent_mono {env : Env K} (henv : EnvOk env) {st st' : St K} (h : Good st) (hs : Shrinks st st') {x y : Nat × K}
    (hd : Dependent env st' x y) : Dependent env st x y :=
  dependent_links (fun e k j hl => linked_shrinks henv h hs e k j hl) hd

theorem dependent_cons {env : Env K} {st : St K} {x y z : Nat × K} (hn : Needs env st x y) (hd : Dependent env st y z) :
    Dependent env st x z := by
  induction hd with
  | self => exact .step .self hn
  | step _ hn2 ih => exact .step ih hn2

theorem del_only {env : Env K} (henv : EnvOk env) (hself : NoSelfRequired env) (n : Nat) (st : St K) (s : Nat) (k : K) (h : Good st)
    (x : Nat × K) (hx : x ∈ st.data) (hx' : x ∉ (del env n st s k).1.data) : Dependent env st (s, k) x := by
  induction n generalizing st s k with
  | zero => exact absurd hx hx'
  | succ n ih =>
    simp only [del] at hx'
    split at hx'
    · exact absurd hx hx'
    · split at hx'
      · exact absurd hx hx'
      · simp only at hx'
        let st0 : St K := { st with deleting := (s, k) :: st.deleting }
        have h0 : Good st0 := ⟨h.agree, h.fwd, h.rev⟩
        -- one entity of the other end after the other
        have hkeys : ∀ (e : EndId) (nav : Bool) (js : List K) (st1 : St K), Shrinks st0 st1 → x ∈ st1.data →
            e ∈ env.links s → (env.near e).mult = .one → (∀ j ∈ js, Linked env st e k j) →
            x ∉ (delKeys (del env n) e (env.far e).set nav k js st1).1.data → Dependent env st (s, k) x := by
          intro e nav js
          induction js with
          | nil => intro st1 _ hx1 _ _ _ hx2; exact absurd hx1 hx2
          | cons j js ihj =>
            intro st1 hs1 hx1 he hm hjs hx2
            simp only [delKeys] at hx2
            split at hx2
            · exact absurd hx1 hx2
            · have hr := removeAt_shrinks hs1.good e k j
              have hd := del_shrinks henv n (removeAt st1 e k j) (env.far e).set j hr.good
              have hx1r : x ∈ (removeAt st1 e k j).data := by rw [(removeAt_data _ _ _ _).1]; exact hx1
              by_cases hmid : x ∈ (del env n (removeAt st1 e k j) (env.far e).set j).1.data
              · refine ihj _ (hs1.trans (hr.trans hd)) hmid he hm (fun i hi => hjs i (List.mem_cons_of_mem _ hi)) ?_
                unfold Res.andThen at hx2
                split at hx2
                · exact hx2
                · exact absurd hmid hx2
              · have hdep := ih _ _ _ hr.good hx1r hmid
                have hst : Shrinks st0 (removeAt st1 e k j) := hs1.trans hr
                have hdep0 := dependent_mono henv h0 hst hdep
                have hdep1 : Dependent env st ((env.far e).set, j) x := 
                  dependent_links (st := st) (st' := st0) (fun _ _ _ h => h) hdep0
                exact dependent_cons ⟨e, he, hm, rfl, hjs j (by simp)⟩ hdep1
        have hends : ∀ (es : List EndId), (∀ e ∈ es, e ∈ env.links s) → ∀ st1 : St K, Shrinks st0 st1 → x ∈ st1.data →
            x ∉ (delEnds env (del env n) s k es st1).1.data → Dependent env st (s, k) x := by
          intro es
          induction es with
          | nil => intro _ st1 _ hx1 hx2; exact absurd hx1 hx2
          | cons e es ihe =>
            intro hes st1 hs1 hx1 hx2
            have hel := hes e (by simp)
            have hs := delEnds_shrinks env (del_shrinks henv n) s k [e] st1 hs1.good
            simp only [delEnds] at hs hx2
            have hone : ∀ r : Res K, (r.andThen fun st => (st, none)).1 = r.1 := by
              intro r; unfold Res.andThen; split <;> rfl
            rw [hone] at hs
            have hjs : ∀ j ∈ getLinks env st1 e k, Linked env st e k j := by
              intro j hj
              have : Linked env st0 e k j := linked_shrinks henv h0 hs1 e k j hj
              exact this
            have hfirst : x ∉ (if (env.near e).mult = .one then
                if (env.assoc e.1).indexed then
                  if (env.assoc e.1).fromEnd.set = s then delKeys (del env n) (e.1, false) (env.assoc e.1).toEnd.set (env.near e).nav k (getLinks env st1 (e.1, false) k) st1
                  else delKeys (del env n) (e.1, true) (env.assoc e.1).fromEnd.set (env.near e).nav k (getLinks env st1 (e.1, true) k) st1
                else (st1, some .attribute)
              else (st1, none)).1.data → Dependent env st (s, k) x := by
              intro hx3
              by_cases hm : (env.near e).mult = .one
              · rw [if_pos hm] at hx3
                by_cases hi : (env.assoc e.1).indexed = true
                · rw [if_pos hi] at hx3
                  have hdir := delEnds_dir henv hself s e hel hm
                  by_cases hf : (env.assoc e.1).fromEnd.set = s
                  · rw [if_pos hf] at hx3
                    obtain ⟨q1, q2⟩ := hdir.1 hf
                    rw [q1, q2] at hx3
                    exact hkeys e _ _ st1 hs1 hx1 hel hm hjs hx3
                  · rw [if_neg hf] at hx3
                    obtain ⟨q1, q2⟩ := hdir.2 hf
                    rw [q1, q2] at hx3
                    exact hkeys e _ _ st1 hs1 hx1 hel hm hjs hx3
                · rw [if_neg hi] at hx3
                  exact absurd hx1 hx3
              · rw [if_neg hm] at hx3
                exact absurd hx1 hx3
            generalize (if (env.near e).mult = .one then
                if (env.assoc e.1).indexed then
                  if (env.assoc e.1).fromEnd.set = s then delKeys (del env n) (e.1, false) (env.assoc e.1).toEnd.set (env.near e).nav k (getLinks env st1 (e.1, false) k) st1
                  else delKeys (del env n) (e.1, true) (env.assoc e.1).fromEnd.set (env.near e).nav k (getLinks env st1 (e.1, true) k) st1
                else (st1, some .attribute)
              else (st1, none)) = r at hfirst hs hx2
            by_cases hr : x ∈ r.1.data
            · refine ihe (fun y hy => hes y (List.mem_cons_of_mem _ hy)) r.1 (hs1.trans hs) hr ?_
              unfold Res.andThen at hx2
              split at hx2
              · exact hx2
              · exact absurd hr hx2
            · exact hfirst hr
        by_cases hmid : x ∈ (delEnds env (del env n) s k (env.links s) st0).1.data
        · have hs := delEnds_shrinks env (del_shrinks henv n) s k (env.links s) st0 h0
          have : x = (s, k) := by
            apply Classical.byContradiction
            intro hne
            apply hx'
            unfold Res.andThen
            split
            · rw [(deleteEntity_spec henv s k hs.good).2.1, List.mem_filter]
              exact ⟨hmid, by simpa using hne⟩
            · exact hmid
          rw [this]
          exact .self
        · exact hends (env.links s) (fun _ h => h) st0 (.refl h0) hx hmid

/-- Nothing is being deleted between operations. -/
theorem run_deleting {env : Env K} (henv : EnvOk env) (st : St K) (op : Op K) (h : Good st) : (run env st op).1.deleting = st.deleting := by
  have hst := good_steps henv (K := K) false
  cases op with
  | insert s k bs =>
    simp only [run]
    unfold MemLinks.insert
    rcases addNew_cases env st s k bs none with ha | ha
    · cases hx : (addNew env st s k bs none).2 with
      | none => exact absurd hx ha.2
      | some x => unfold Res.andThen; simp only [hx, ha.1]
    · rw [ha.1]
      show (binds env { st with data := st.data ++ [(s, k)] } s k bs).1.deleting = st.deleting
      exact (binds_keeps henv hst { st with data := st.data ++ [(s, k)] } s k bs ⟨h.agree, h.fwd, h.rev⟩ (by simp [There]) (by simp [FreshIf])).2.2
  | update s k bs =>
    simp only [run, update]
    split
    · exact (binds_keeps henv hst st s k bs h (by simp [There]) (by simp [FreshIf])).2.2
    · rfl
  | delete s k => exact (del_shrinks henv _ st s k h).deleting
  | link e k j =>
    simp only [run]
    split
    · exact (link_data env st e k j).2
    · rfl
  | unlink e k j =>
    simp only [run]
    split
    · rcases unlink_cases (env := env) st e k j with hu | hu
      · rw [hu]
      · rw [hu.1]; exact (removeAt_data st e k j).2
    · rfl
  | replace e k j =>
    simp only [run]
    split
    · exact (replace_data henv h e k j).2
    · rfl
  | navInsert e k j bs =>
    simp only [run]
    split
    · rename_i hn
      exact (bind_keeps henv hst st e k (.new j bs) h hn (by simp [There]) (by simp)).2.2
    · rfl

theorem history_deleting {env : Env K} (henv : EnvOk env) (ops : List (Op K)) : (history env ops).deleting = [] := by
  have : ∀ (ops : List (Op K)) (st : St K), Good st → (ops.foldl (fun st op => (run env st op).1) st).deleting = st.deleting := by
    intro ops
    induction ops with
    | nil => intro st _; rfl
    | cons op ops ih => intro st h; rw [List.foldl_cons, ih _ (good_run henv st op h), run_deleting henv st op h]
  exact this ops empty good_empty

/-! ### C117 -/

/-- C117. Deletion comes to an end: the bound on the depth in the model is never reached. -/
theorem delete_depth (env : Env K) (henv : EnvOk env) (ops : List (Op K)) (s : Nat) (k : K) :
    (delete env (history env ops) s k).2 ≠ some .fuel :=
  del_fuel henv _ _ s k (good_history henv ops) (by have := alive_le_length (history env ops); omega)

/-- C117, partial. A deletion that succeeds removes the entity and everything that requires it (or requires something that
does), and no other entity; the links among the remaining entities are as before, and no others are left.  Missing:
deletions that fail (`delete_fails_refuted`) and associations of an entity set with itself that require an entity at the
second end (`delete_self_refuted`). -/
theorem delete_exact_partial (env : Env K) (henv : EnvOk env) (hself : NoSelfRequired env) (ops : List (Op K))
    (hf : FreshAll env empty ops) (s : Nat) (k : K) (hr : (delete env (history env ops) s k).2 = none) :
    let st := history env ops
    let st' := (delete env st s k).1
    (∀ x, x ∈ st'.data ↔ x ∈ st.data ∧ ¬ Dependent env st (s, k) x) ∧
    ∀ e i j, Linked env st' e i j ↔ Linked env st e i j ∧ ((env.near e).set, i) ∈ st'.data ∧ ((env.far e).set, j) ∈ st'.data := by
  have hg := good_history henv ops
  have hd := history_deleting henv ops
  have hsound : LinkSound env (history env ops) := sound_runs henv ops empty (sound_empty env) hf
  generalize history env ops = st at hg hd hsound hr ⊢
  obtain ⟨hp, hgone⟩ := del_proper henv hself _ st s k hg hr
  have hsound' : LinkSound env (delete env st s k).1 := sound_run henv st (.delete s k) hsound trivial
  have gone : ∀ x, Gone st (delete env st s k).1 x → x ∉ (delete env st s k).1.data := by
    rintro x (h | h)
    · exact h
    · rw [hd] at h; cases h
  refine ⟨?_, ?_⟩
  · intro x
    constructor
    · intro hx
      refine ⟨hp.shrinks.data.subset hx, ?_⟩
      intro hdep
      have : x ∉ (delete env st s k).1.data := by
        clear hx
        induction hdep with
        | self => exact gone _ hgone
        | step _ hn ih =>
          obtain ⟨e, he, hm, hz, hl⟩ := hn
          rename_i y z _
          unfold Linked at hl
          rw [mem_getLinks henv hg] at hl
          rcases hp.needs e _ _ hm hl with h1 | h1
          · exfalso
            apply ih
            have := hsound'.near e _ _ h1
            rw [henv.near _ e he] at this
            exact this
          · have := gone _ h1
            rw [← hz] at this
            exact this
      exact this hx
    · rintro ⟨h1, h2⟩
      apply Classical.byContradiction
      intro h3
      exact h2 (del_only henv hself _ st s k hg x h1 h3)
  · intro e i j
    constructor
    · intro hl
      exact ⟨linked_shrinks henv hg hp.shrinks e i j hl, sound_linked henv hsound' e i j hl⟩
    · rintro ⟨hl, h1, h2⟩
      unfold Linked at hl ⊢
      rw [mem_getLinks henv hg] at hl
      rw [mem_getLinks henv hsound'.good]
      rcases hp.links e i j hl with h | h | h
      · exact h
      · exact absurd h1 (gone _ h)
      · exact absurd h2 (gone _ h)

/-- C117. An entity that nothing requires can be deleted, if its required associations can be navigated. -/
theorem delete_succeeds (env : Env K) (henv : EnvOk env) (ops : List (Op K)) (s : Nat) (k : K) (hx : (s, k) ∈ (history env ops).data)
    (hi : ∀ e ∈ env.links s, (env.near e).mult = .one → (env.assoc e.1).indexed = true ∧
      (∀ j, ¬ Linked env (history env ops) e k j) ∧ (∀ j, ¬ Linked env (history env ops) e.other k j)) :
    (delete env (history env ops) s k).2 = none := by
  have hg := good_history henv ops
  have hd := history_deleting henv ops
  generalize history env ops = st at hg hd hx hi ⊢
  unfold delete
  have hunf : del env (st.data.length + 2) st s k = _ := del.eq_2 env st s k (st.data.length + 1)
  rw [hunf, if_neg (by rw [hd]; simp), if_neg (by simpa using hx)]
  have hends : ∀ es : List EndId, (∀ e ∈ es, e ∈ env.links s) →
      delEnds env (del env (st.data.length + 1)) s k es { st with deleting := (s, k) :: st.deleting } =
        ({ st with deleting := (s, k) :: st.deleting }, none) := by
    intro es
    induction es with
    | nil => intro _; rfl
    | cons e es ih =>
      intro hes
      have ih := ih (fun x hx => hes x (List.mem_cons_of_mem _ hx))
      simp only [delEnds]
      by_cases hm : (env.near e).mult = .one
      · obtain ⟨h1, h2, h3⟩ := hi e (hes e (by simp)) hm
        have hnil : ∀ b, getLinks env { st with deleting := (s, k) :: st.deleting } (e.1, b) k = [] := by
          intro b
          rw [List.eq_nil_iff_forall_not_mem]
          intro j hj
          have hj : Linked env st (e.1, b) k j := hj
          obtain ⟨a, c⟩ := e
          cases b <;> cases c
          · exact h2 j hj
          · exact h3 j hj
          · exact h3 j hj
          · exact h2 j hj
        rw [if_pos hm, if_pos h1, hnil, hnil]
        split <;> exact ih
      · rw [if_neg hm]
        exact ih
  simp only
  rw [hends _ (fun _ h => h)]
  show (deleteEntity env s k _).2 = none
  rw [(deleteEntity_spec henv s k (st := { st with deleting := (s, k) :: st.deleting }) ⟨hg.agree, hg.fwd, hg.rev⟩).2.2.2.1]
  exact hx

/-- Set 1 and set 2 require set 0 and set 1: an entity of set 1 requires one of set 0 and one of set 2, an entity of set 2
requires one of set 1. -/
def triangle : Env Nat :=
  listEnv [⟨⟨1, .many, true⟩, ⟨0, .one, true⟩⟩, ⟨⟨1, .many, true⟩, ⟨2, .one, true⟩⟩, ⟨⟨2, .many, true⟩, ⟨1, .one, true⟩⟩]

theorem triangle_ok : EnvOk triangle := listEnv_nav _ (by decide)

/-- C117, refuted. Two entities of set 1 require the entity to be deleted, and the second requires what requires the first:
when it is the second's turn it is gone already, and deletion fails half way. -/
theorem delete_fails_refuted :
    let ops := [Op.insert 0 1 .nil,
      .insert 1 1 (.cons (0, false) (.key 1) (.cons (1, false) (.new 1 (.cons (2, false) (.key 1) .nil)) .nil)),
      .insert 1 2 (.cons (0, false) (.key 1) (.cons (1, false) (.key 1) .nil))]
    NoSelfRequired triangle ∧ FreshAll triangle empty ops ∧ (0, 1) ∈ (history triangle ops).data ∧
    (delete triangle (history triangle ops) 0 1).2 = some .key ∧
    (0, 1) ∈ (delete triangle (history triangle ops) 0 1).1.data ∧
    (1, 1) ∈ (history triangle ops).data ∧ (1, 1) ∉ (delete triangle (history triangle ops) 0 1).1.data := by
  refine ⟨?_, ⟨trivial, ⟨trivial, ⟨trivial, trivial⟩, trivial⟩, ⟨trivial, trivial, trivial⟩, trivial⟩, ?_, ?_, ?_, ?_, ?_⟩
  · intro a
    match a with
    | 0 => decide
    | 1 => decide
    | 2 => decide
    | n + 3 => intro _; simp [triangle, listEnv]
  all_goals decide +kernel

/-- Every person has exactly one superior, which is the second end of the association. -/
def staff : Env Nat := listEnv [⟨⟨0, .many, true⟩, ⟨0, .one, true⟩⟩]

theorem staff_ok : EnvOk staff := listEnv_nav _ (by decide)

/-- C116 and C117, refuted. Person 1 is their own superior, and 2's: deleting 1 follows the association the wrong way, so
that 2 stays, without the superior they are required to have. -/
theorem delete_self_refuted :
    let ops := [Op.insert 0 1 (.cons (0, false) (.key 1) .nil), .insert 0 2 (.cons (0, false) (.key 1) .nil)]
    (delete staff (history staff ops) 0 1).2 = none ∧
    (0, 2) ∈ (delete staff (history staff ops) 0 1).1.data ∧
    getLinks staff (delete staff (history staff ops) 0 1).1 (0, false) 2 = [] ∧
    ¬ RequiredKept staff (delete staff (history staff ops) 0 1).1 := by
  have h : getLinks staff (delete staff (history staff [Op.insert 0 1 (.cons (0, false) (.key 1) .nil),
      .insert 0 2 (.cons (0, false) (.key 1) .nil)]) 0 1).1 (0, false) 2 = [] := by decide +kernel
  have h2 : (0, 2) ∈ (delete staff (history staff [Op.insert 0 1 (.cons (0, false) (.key 1) .nil),
      .insert 0 2 (.cons (0, false) (.key 1) .nil)]) 0 1).1.data := by decide +kernel
  refine ⟨by decide +kernel, h2, h, ?_⟩
  intro hreq
  obtain ⟨j, hj, _⟩ := hreq 0 2 h2 (0, false) (by decide) rfl
  unfold Linked at hj
  rw [h] at hj
  cases hj

/-- An association that cannot be navigated in either direction; each entity of set 1 requires one of set 0. -/
def silent : Env Nat := listEnv [⟨⟨1, .many, false⟩, ⟨0, .one, false⟩⟩]

/-- C117, refuted. An entity at the required end of an association without navigation properties cannot be deleted: there
is no index to look at. -/
theorem delete_silent_refuted :
    (delete silent (history silent [Op.insert 0 1 .nil]) 0 1).2 = some .attribute := by
  decide +kernel

/-- Non-vacuity of `delete_exact_partial`: deleting a customer deletes their orders and leaves the passport. -/
theorem delete_hypotheses :
    let ops := [Op.insert 1 7 (.cons (0, true) (.new 1 .nil) (.cons (0, true) (.new 2 .nil) (.cons (1, false) (.new 5 .nil) .nil))),
      .insert 1 8 (.cons (0, true) (.new 3 .nil) .nil)]
    NoSelfRequired shop ∧ FreshAll shop empty ops ∧ (delete shop (history shop ops) 1 7).2 = none ∧
    (delete shop (history shop ops) 1 7).1.data = [(2, 5), (1, 8), (0, 3)] := by
  refine ⟨?_, ⟨⟨trivial, trivial, trivial, trivial⟩, ⟨trivial, trivial⟩, trivial⟩, ?_, ?_⟩
  · intro a
    match a with
    | 0 => decide
    | 1 => decide
    | n + 2 => intro _; simp [shop, listEnv]
  all_goals decide +kernel

/-! ### C116 -/

/-- There is a link at an end. -/
def Has (st : St K) (e : EndId) (k : K) : Prop := ∃ j, Lk st e k j

/-- No required link is missing that was not missing before. -/
def LinkKept (env : Env K) (st st' : St K) : Prop :=
  ∀ s k e, (s, k) ∈ st'.data → e ∈ env.links s → (env.far e).mult = .one → Has st' e k ∨ ((s, k) ∈ st.data ∧ ¬ Has st e k)

theorem LinkKept.refl (env : Env K) (st : St K) : LinkKept env st st := by
  intro s k e h _ _
  by_cases hh : Has st e k
  · exact .inl hh
  · exact .inr ⟨h, hh⟩

theorem LinkKept.trans {env : Env K} {a b c : St K} (h : LinkKept env a b) (h2 : LinkKept env b c) : LinkKept env a c := by
  intro s k e hk he hm
  rcases h2 s k e hk he hm with h3 | ⟨h3, h4⟩
  · exact .inl h3
  · rcases h s k e h3 he hm with h5 | h5
    · exact absurd h5 h4
    · exact .inr h5

/-- What is there stays there. -/
theorem kept_grow {env : Env K} {st st' : St K} (hd : st'.data = st.data)
    (h : ∀ e k, (env.far e).mult = .one → Has st e k → Has st' e k) : LinkKept env st st' := by
  intro s k e hk _ hm
  by_cases hh : Has st e k
  · exact .inl (h e k hm hh)
  · exact .inr ⟨by rw [← hd]; exact hk, hh⟩

theorem kept_link {env : Env K} (henv : EnvOk env) {st : St K} (h : Good st) (e : EndId) (k j : K) :
    LinkKept env st (link env st e k j).1 ∧ ((link env st e k j).2 = none → Lk (link env st e k j).1 e k j) := by
  rcases link_cases henv h e k j with hc | hc
  · rw [hc.1]
    exact ⟨.refl _ _, hc.2⟩
  · rw [hc.1]
    refine ⟨kept_grow (addAt_data st e k j).1 ?_, fun _ => (lk_addAt _ _ _ _ _ _ _).mpr (.inr (.inl ⟨rfl, rfl, rfl⟩))⟩
    rintro e' k' _ ⟨i, hi⟩
    exact ⟨i, (lk_addAt _ _ _ _ _ _ _).mpr (.inl hi)⟩

theorem kept_replace {env : Env K} (henv : EnvOk env) {st : St K} (h : Good st) (e : EndId) (k j : K) :
    LinkKept env st (replace env st e k j).1 ∧ ((replace env st e k j).2 = none → Lk (replace env st e k j).1 e k j) := by
  rcases replace_cases henv h e k j with hc | hc | hc
  · rw [hc.1]
    exact ⟨.refl _ _, fun hr => (hc.2 hr j).mpr rfl⟩
  · rw [hc.1]
    exact kept_link henv h e k j
  · refine ⟨kept_grow hc.2.2.2.1 ?_, fun _ => (hc.2.2.2.2.2 _ _ _).mpr (.inr (.inl ⟨rfl, rfl, rfl⟩))⟩
    rintro e' k' hm ⟨i, hi⟩
    have hne : e' ≠ e.other := by
      intro he
      subst he
      rw [far_other] at hm
      exact hc.1 hm
    by_cases hx : e' = e ∧ k' = k
    · exact ⟨j, (hc.2.2.2.2.2 _ _ _).mpr (.inr (.inl ⟨hx.1, hx.2, rfl⟩))⟩
    · exact ⟨i, (hc.2.2.2.2.2 _ _ _).mpr (.inl ⟨hi, hx, fun hy => hne hy.1⟩)⟩

theorem kept_bindOld {env : Env K} (henv : EnvOk env) {st : St K} (h : Good st) (e : EndId) (k j : K) :
    LinkKept env st (bindOld env st e k j).1 ∧ ((bindOld env st e k j).2 = none → Lk (bindOld env st e k j).1 e k j) := by
  unfold bindOld
  split
  · exact kept_link henv h e k j
  · exact kept_replace henv h e k j

/-- If nothing is violated, the required ends are bound, except the one to be ignored. -/
theorem violates_false {env : Env K} (henv : EnvOk env) (s : Nat) (bs : Binds K) (ig : Option EndId) (h : violates env s bs ig = false)
    (e : EndId) (he : e ∈ env.links s) (hm : (env.far e).mult = .one) : some e = ig ∨ bs.has e = true := by
  unfold violates at h
  rw [Bool.or_eq_false_iff] at h
  obtain ⟨h1, h2⟩ := h
  by_cases hn : (env.near e).nav = true
  · rw [List.any_eq_false] at h2
    have := h2 e he
    simp only [hn, hm, decide_true, Bool.and_true, Bool.true_and, Bool.and_eq_true, Bool.not_eq_true', decide_eq_false_iff_not,
      not_and, Bool.not_eq_false] at this
    by_cases hig : some e = ig
    · exact .inl hig
    · exact .inr (this hig)
  · left
    have hn : (env.near e).nav = false := by simpa using hn
    cases hu : unboundPrincipal env s with
    | none =>
      unfold unboundPrincipal at hu
      rw [List.find?_eq_none] at hu
      have := hu e he
      simp [hn, hm] at this
    | some x =>
      rw [hu] at h1
      unfold unboundPrincipal at hu
      have hx := List.find?_some hu
      have hxm := List.mem_of_find?_eq_some hu
      simp only [Bool.and_eq_true, Bool.not_eq_true', decide_eq_true_eq] at hx
      have := henv.unbound s e x he hxm hn hx.1 hm hx.2
      rw [this]
      simpa using h1

mutual
theorem bind_kept {env : Env K} (henv : EnvOk env) (st : St K) (e : EndId) (k : K) (b : Bind K) (h : Good st)
    (hn : env.isNav e = true) (hr : (bind env st e k b).2 = none) : LinkKept env st (bind env st e k b).1 ∧ Has (bind env st e k b).1 e k := by
  cases b with
  | key j =>
    simp only [MemLinks.bind] at hr ⊢
    split at hr
    · rename_i hm
      rw [if_pos hm]
      have := kept_bindOld henv h e k j
      exact ⟨this.1, j, this.2 hr⟩
    · cases hr
  | old j =>
    simp only [MemLinks.bind] at hr ⊢
    have := kept_bindOld henv h e k j
    exact ⟨this.1, j, this.2 hr⟩
  | new j bs =>
    simp only [MemLinks.bind] at hr ⊢
    obtain ⟨h1, h2, h3⟩ := andThen_none hr
    rw [h3]
    obtain ⟨h4, h5, h6⟩ := andThen_none h1
    rw [h6] at h2 ⊢
    rcases addNew_cases env st (env.far e).set j bs (some e.other) with ha | ha
    · exact absurd h4 ha.2
    · rw [ha.1] at h2 h5 ⊢
      simp only at h2 h5 ⊢
      have hg : Good ({ st with data := st.data ++ [((env.far e).set, j)] } : St K) := ⟨h.agree, h.fwd, h.rev⟩
      have hb := binds_kept henv _ (env.far e).set j bs hg h5
      have hk := binds_keeps henv (good_steps henv (K := K) false) _ (env.far e).set j bs hg (by simp [There]) (by simp [FreshIf])
      generalize (binds env { st with data := st.data ++ [((env.far e).set, j)] } (env.far e).set j bs).1 = st2 at hb hk h2 ⊢
      have hl := kept_link henv hk.1 e k j
      have hl2 := hl.2 h2
      refine ⟨?_, j, hl2⟩
      intro s' k' e' hd he hm
      rcases hl.1 s' k' e' hd he hm with hx | ⟨hx, hy⟩
      · exact .inl hx
      · rcases hb.1 s' k' e' hx he hm with hz | ⟨hz, hw⟩
        · exact absurd hz hy
        · rcases List.mem_append.mp hz with hz | hz
          · exact .inr ⟨hz, hw⟩
          · simp only [List.mem_singleton, Prod.mk.injEq] at hz
            obtain ⟨q1, q2⟩ := hz
            subst q1 q2
            rcases violates_false henv _ bs _ ha.2.2 e' he hm with hi | hi
            · left
              rw [Option.some.inj hi]
              exact ⟨k, (lk_other _ _ _ _).mpr hl2⟩
            · exact absurd (hb.2 e' hi hm he (by simp)) hy
theorem binds_kept {env : Env K} (henv : EnvOk env) (st : St K) (s : Nat) (k : K) (bs : Binds K) (h : Good st)
    (hr : (binds env st s k bs).2 = none) : LinkKept env st (binds env st s k bs).1 ∧
      ∀ e, bs.has e = true → (env.far e).mult = .one → e ∈ env.links s → (s, k) ∈ st.data → Has (binds env st s k bs).1 e k := by
  cases bs with
  | nil => exact ⟨.refl _ _, by simp [Binds.has]⟩
  | cons e b rest =>
    simp only [binds] at hr ⊢
    split at hr
    · rename_i hc
      rw [if_pos hc]
      obtain ⟨h1, h2, h3⟩ := andThen_none hr
      rw [h3]
      have hb := bind_kept henv st e k b h hc.2 h1
      have hk := bind_keeps henv (good_steps henv (K := K) false) st e k b h hc.2 (by simp [There]) (by simp)
      have hrest := binds_kept henv _ s k rest hk.1 h2
      have hk2 := binds_keeps henv (good_steps henv (K := K) false) _ s k rest hk.1 (by simp [There]) (by simp [FreshIf])
      refine ⟨hb.1.trans hrest.1, ?_⟩
      intro e' he hm hl hin
      simp only [Binds.has, Bool.or_eq_true, decide_eq_true_eq] at he
      rcases he with he | he
      · subst he
        rcases hrest.1 s k e (hk2.2.1 _ (hk.2.1 _ hin)) hl hm with hx | hx
        · exact hx
        · exact absurd hb.2 hx.2
      · exact hrest.2 e' he hm hl (hk.2.1 _ hin)
    · cases hr
end

theorem kept_run {env : Env K} (henv : EnvOk env) (hself : NoSelfRequired env) (st : St K) (op : Op K) (h : Good st)
    (hd : st.deleting = []) (hr : (run env st op).2 = none) : LinkKept env st (run env st op).1 := by
  cases op with
  | insert s k bs =>
    simp only [run] at hr ⊢
    unfold MemLinks.insert at hr ⊢
    obtain ⟨h1, h2, h3⟩ := andThen_none hr
    rw [h3]
    rcases addNew_cases env st s k bs none with ha | ha
    · exact absurd h1 ha.2
    · rw [ha.1] at h2 ⊢
      simp only at h2 ⊢
      have hb := binds_kept henv { st with data := st.data ++ [(s, k)] } s k bs ⟨h.agree, h.fwd, h.rev⟩ h2
      intro s' k' e' hin he hm
      rcases hb.1 s' k' e' hin he hm with hx | ⟨hx, hy⟩
      · exact .inl hx
      · rcases List.mem_append.mp hx with hx | hx
        · exact .inr ⟨hx, hy⟩
        · simp only [List.mem_singleton, Prod.mk.injEq] at hx
          obtain ⟨q1, q2⟩ := hx
          subst q1 q2
          rcases violates_false henv _ bs _ ha.2.2 e' he hm with hi | hi
          · cases hi
          · exact .inl (hb.2 e' hi hm he (by simp))
  | update s k bs =>
    simp only [run, update] at hr ⊢
    split at hr
    · rename_i hm
      rw [if_pos hm]
      exact (binds_kept henv st s k bs h hr).1
    · cases hr
  | delete s k =>
    have hp := (del_proper henv hself _ st s k h hr).1
    intro s' k' e' hin he hm
    have hin' : (s', k') ∈ st.data := hp.shrinks.data.subset hin
    by_cases hh : Has st e' k'
    · obtain ⟨j, hj⟩ := hh
      rcases hp.needs e'.other j k' (by rw [near_other]; exact hm) ((lk_other _ _ _ _).mpr hj) with hx | hx
      · exact .inl ⟨j, (lk_other _ _ _ _).mp hx⟩
      · rw [far_other, henv.near s' e' he] at hx
        rcases hx with hx | hx
        · exact absurd hin hx
        · rw [hd] at hx; cases hx
    · exact .inr ⟨hin', hh⟩
  | link e k j =>
    simp only [run] at hr ⊢
    split
    · exact (kept_link henv h e k j).1
    · exact .refl _ _
  | unlink e k j =>
    simp only [run] at hr ⊢
    split
    · rcases unlink_cases (env := env) st e k j with hu | hu
      · rw [hu]; exact .refl _ _
      · rw [hu.1]
        refine kept_grow (removeAt_data st e k j).1 ?_
        rintro e' k' hm ⟨i, hi⟩
        refine ⟨i, (lk_removeAt _ _ _ _ _ _ _).mpr ⟨hi, ?_, ?_⟩⟩
        · rintro ⟨q, _⟩
          subst q
          exact hu.2.2 hm
        · rintro ⟨q, _⟩
          subst q
          rw [far_other] at hm
          exact hu.2.1 hm
    · exact .refl _ _
  | replace e k j =>
    simp only [run] at hr ⊢
    split
    · exact (kept_replace henv h e k j).1
    · exact .refl _ _
  | navInsert e k j bs =>
    simp only [run] at hr ⊢
    split at hr
    · rename_i hn
      rw [if_pos hn]
      exact (bind_kept henv st e k (.new j bs) h hn hr).1
    · cases hr

theorem kept_runs {env : Env K} (henv : EnvOk env) (hself : NoSelfRequired env) (ops : List (Op K)) (st : St K) (h : Good st)
    (hd : st.deleting = []) (hc : Clean env st ops) : LinkKept env st (ops.foldl (fun st op => (run env st op).1) st) := by
  induction ops generalizing st with
  | nil => exact .refl _ _
  | cons op ops ih =>
    refine LinkKept.trans ?_ (ih _ (good_run henv st op h) (by rw [run_deleting henv st op h]; exact hd) hc.2)
    rcases hc.1 with hr | hr
    · exact kept_run henv hself st op h hd hr
    · show LinkKept env st (run env st op).1
      rw [hr]; exact .refl _ _

/-- C116, partial. In a history in which every operation succeeds or has no effect, no object of a deleted entity is used
and no association of an entity set with itself requires an entity at its second end: every entity has the links it is
required to have, to entities that exist.  Missing: operations that fail half way (`required_refuted`) and such
associations (`delete_self_refuted`). -/
theorem required_partial (env : Env K) (henv : EnvOk env) (hself : NoSelfRequired env) (ops : List (Op K))
    (hf : FreshAll env empty ops) (hc : Clean env empty ops) : RequiredKept env (history env ops) := by
  have hk := kept_runs henv hself ops empty good_empty rfl hc
  have hs : LinkSound env (history env ops) := sound_runs henv ops empty (sound_empty env) hf
  intro s k hin e he hm
  rcases hk s k e hin he hm with ⟨j, hj⟩ | ⟨hj, _⟩
  · exact ⟨j, (mem_getLinks henv hs.good e k j).mpr hj, hs.far e k j hj⟩
  · cases hj

/-- Non-vacuity of `required_partial`: customers, orders, an update, a deletion and an insertion that is refused. -/
theorem required_hypotheses :
    let ops := [Op.insert 1 7 (.cons (0, true) (.new 1 .nil) (.cons (0, true) (.new 2 .nil) .nil)),
      .insert 0 3 (.cons (0, false) (.key 7) .nil), .insert 0 4 .nil, .insert 1 8 (.cons (0, true) (.new 5 .nil) .nil), .delete 1 7]
    FreshAll shop empty ops ∧ Clean shop empty ops ∧ (history shop ops).data = [(1, 8), (0, 5)] := by
  refine ⟨⟨⟨trivial, trivial, trivial⟩, ⟨trivial, trivial⟩, trivial, ⟨trivial, trivial⟩, trivial, trivial⟩, ?_, ?_⟩
  · refine ⟨.inl ?_, .inl ?_, .inr ?_, .inl ?_, .inl ?_, trivial⟩
    · decide +kernel
    · decide +kernel
    · rfl
    · decide +kernel
    · decide +kernel
  · decide +kernel

/-! ### C118 -/

/-- C118, partial. Linking, unlinking and replacing that fails has no effect, and neither has inserting an entity whose key
is taken or which lacks a required link, or updating or deleting an entity that does not exist.  Missing: inserting and
updating with bindings that fail (`failed_insert_refuted`) and deletions that fail half way (`delete_fails_refuted`). -/
theorem failures_partial (env : Env K) (henv : EnvOk env) (ops : List (Op K)) :
    let st := history env ops
    (∀ e k j, (run env st (.link e k j)).2 ≠ none → (run env st (.link e k j)).1 = st) ∧
    (∀ e k j, (run env st (.unlink e k j)).2 ≠ none → (run env st (.unlink e k j)).1 = st) ∧
    (∀ e k j, (run env st (.replace e k j)).2 ≠ none → (run env st (.replace e k j)).1 = st) ∧
    (∀ s k bs, (s, k) ∈ st.data → run env st (.insert s k bs) = (st, some .constraint)) ∧
    (∀ s k bs, (∃ e ∈ env.links s, (env.far e).mult = .one ∧ bs.has e = false) → (s, k) ∉ st.data →
      run env st (.insert s k bs) = (st, some .navConstraint)) ∧
    (∀ s k bs, (s, k) ∉ st.data → run env st (.update s k bs) = (st, some .key)) ∧
    (∀ s k, (s, k) ∉ st.data → run env st (.delete s k) = (st, some .key)) := by
  have h := good_history henv ops
  have hd := history_deleting henv ops
  generalize history env ops = st at h hd ⊢
  have hlink : ∀ e k j, (link env st e k j).2 ≠ none → (link env st e k j).1 = st := by
    intro e k j hr
    rcases link_cases henv h e k j with hc | hc
    · exact hc.1
    · rw [hc.1] at hr; exact absurd rfl hr
  refine ⟨?_, ?_, ?_, ?_, ?_, ?_, ?_⟩
  · intro e k j
    simp only [run]
    split
    · exact hlink e k j
    · intro _; rfl
  · intro e k j
    simp only [run]
    split
    · intro hr
      rcases unlink_cases (env := env) st e k j with hu | hu
      · exact hu
      · rw [hu.1] at hr; exact absurd rfl hr
    · intro _; rfl
  · intro e k j
    simp only [run]
    split
    · intro hr
      rcases replace_cases henv h e k j with hc | hc | hc
      · exact hc.1
      · rw [hc.1] at hr ⊢; exact hlink e k j hr
      · exact absurd hc.2.1 hr
    · intro _; rfl
  · intro s k bs hin
    simp only [run]
    unfold MemLinks.insert addNew
    rw [if_pos hin]
    rfl
  · rintro s k bs ⟨e, he, hm, hb⟩ hin
    simp only [run]
    unfold MemLinks.insert addNew
    rw [if_neg hin]
    have hv : violates env s bs none = true := by
      apply Classical.byContradiction
      intro hn
      rcases violates_false henv s bs none (by simpa using hn) e he hm with hx | hx
      · cases hx
      · rw [hb] at hx; cases hx
    rw [if_pos hv]
    rfl
  · intro s k bs hin
    simp only [run, update]
    rw [if_neg hin]
  · intro s k hin
    simp only [run, delete]
    have hunf : del env (st.data.length + 2) st s k = _ := del.eq_2 env st s k (st.data.length + 1)
    rw [hunf, if_neg (by rw [hd]; simp), if_pos hin]

/-- C116 and C118, refuted. An order that names a customer who does not exist is refused, but is there afterwards, without
a customer. -/
theorem failed_insert_refuted :
    let op := Op.insert 0 1 (.cons (0, false) (.key 9) .nil)
    (run shop empty op).2 = some .key ∧ (run shop empty op).1.data = [(0, 1)] ∧ (run shop empty op).1 ≠ empty ∧
      ¬ RequiredKept shop (run shop empty op).1 := by
  have hdata : (run shop empty (Op.insert 0 1 (.cons (0, false) (.key 9) .nil))).1.data = [(0, 1)] := by decide +kernel
  refine ⟨by decide +kernel, hdata, ?_, ?_⟩
  · intro h
    simp only [h] at hdata
    simp [empty] at hdata
  · intro hr
    obtain ⟨j, hj, _⟩ := hr 0 1 (by rw [hdata]; simp) (0, false) (by decide) rfl
    have : getLinks shop (run shop empty (Op.insert 0 1 (.cons (0, false) (.key 9) .nil))).1 (0, false) 1 = [] := by decide +kernel
    unfold Linked at hj
    rw [this] at hj
    cases hj

/-- C116, refuted: the same as a history. -/
theorem required_refuted :
    FreshAll shop empty [Op.insert 0 1 (.cons (0, false) (.key 9) .nil)] ∧
      ¬ RequiredKept shop (history shop [Op.insert 0 1 (.cons (0, false) (.key 9) .nil)]) :=
  ⟨⟨⟨trivial, trivial⟩, trivial⟩, failed_insert_refuted.2.2.2⟩

/-! ### C119 -/

/-- The two steps of a thread are `link`. -/
theorem link_steps (env : Env K) (st : St K) (e : EndId) (k j : K) :
    link env st e k j = match linkCheck env st e k j with
      | some r => (st, r)
      | none => (addAt st e k j, none) := by
  unfold link linkCheck
  split
  · rfl
  · split
    · rfl
    · split
      · rfl
      · split <;> rfl

theorem step_good {env : Env K} {st : St K} (h : Good st) (t : Th K) : Good (step env st t).1 := by
  unfold step
  split
  · split <;> exact h
  · exact addAt_good h _ _ _
  · exact h

theorem threads_good {env : Env K} (is : List Nat) (st : St K) (ts : List (Th K)) (h : Good st) : Good (threads env is st ts).1 := by
  induction is generalizing st ts with
  | nil => exact h
  | cons i is ih =>
    simp only [threads]
    split
    · exact ih _ _ (step_good h _)
    · exact ih _ _ h

/-- C119. However threads that link entities interleave, both directions agree. -/
theorem threads_both_ways (env : Env K) (henv : EnvOk env) (ops : List (Op K)) (ts : List (Th K)) (is : List Nat) :
    BothWays env (threads env is (history env ops) ts).1 := by
  have hg := threads_good (env := env) is _ ts (good_history henv ops)
  intro e k j
  unfold Linked
  rw [mem_getLinks henv hg, mem_getLinks henv hg, lk_other]

/-- What threads have reported is there. -/
def Reported (env : Env K) (st : St K) (ts : List (Th K)) : Prop :=
  ∀ t ∈ ts, t.phase = .done none → Linked env st t.e t.k t.j

theorem step_reported {env : Env K} (henv : EnvOk env) {st : St K} (h : Good st) (t : Th K) :
    (∀ e k j, Linked env st e k j → Linked env (step env st t).1 e k j) ∧
    ((t.phase = .done none → Linked env st t.e t.k t.j) → (step env st t).2.phase = .done none →
      Linked env (step env st t).1 (step env st t).2.e (step env st t).2.k (step env st t).2.j) := by
  have hadd : ∀ e k j, Linked env st e k j → Linked env (addAt st t.e t.k t.j) e k j := by
    intro e k j hl
    unfold Linked at hl ⊢
    rw [mem_getLinks henv h] at hl
    rw [mem_getLinks henv (addAt_good h _ _ _), lk_addAt]
    exact .inl hl
  unfold step
  split
  · split
    · rename_i r hr
      refine ⟨fun _ _ _ h => h, fun _ hd => ?_⟩
      have hd : r = none := by simpa using hd
      subst hd
      unfold linkCheck at hr
      split at hr
      · assumption
      · split at hr
        · cases hr
        · split at hr
          · cases hr
          · split at hr <;> cases hr
    · exact ⟨fun _ _ _ h => h, fun _ hd => by cases hd⟩
  · refine ⟨hadd, fun _ _ => ?_⟩
    show Linked env (addAt st t.e t.k t.j) t.e t.k t.j
    unfold Linked
    rw [mem_getLinks henv (addAt_good h _ _ _), lk_addAt]
    exact .inr (.inl ⟨rfl, rfl, rfl⟩)
  · exact ⟨fun _ _ _ h => h, fun hx hd => hx hd⟩

theorem threads_reported (env : Env K) (henv : EnvOk env) (is : List Nat) (st : St K) (ts : List (Th K)) (h : Good st)
    (hr : Reported env st ts) : Reported env (threads env is st ts).1 (threads env is st ts).2 := by
  induction is generalizing st ts with
  | nil => exact hr
  | cons i is ih =>
    simp only [threads]
    split
    · rename_i t ht
      have hst := step_reported (env := env) henv h t
      refine ih _ _ (step_good h t) ?_
      intro t' ht' hd
      rcases List.mem_or_eq_of_mem_set ht' with hx | hx
      · exact hst.1 _ _ _ (hr t' hx hd)
      · rw [hx] at hd ⊢
        exact hst.2 (hr t (List.mem_of_getElem? ht)) hd
    · exact ih _ _ h hr

/-- C119. A link that a thread has reported is there at the end of any schedule. -/
theorem threads_links_kept (env : Env K) (henv : EnvOk env) (ops : List (Op K)) (ts : List (Th K)) (hs : ∀ t ∈ ts, t.phase = .start)
    (is : List Nat) (t : Th K) (ht : t ∈ (threads env is (history env ops) ts).2) (hd : t.phase = .done none) :
    Linked env (threads env is (history env ops) ts).1 t.e t.k t.j :=
  threads_reported env henv is _ ts (good_history henv ops) (fun t ht hd => by rw [hs t ht] at hd; cases hd) t ht hd

/-- C119, partial. A thread that is not interrupted between its two steps does what `link` does (so that multiplicities are
observed as in `multiplicity_partial`).  Missing: threads that are interrupted (`threads_refuted`). -/
theorem threads_serial_partial (env : Env K) (st : St K) (e : EndId) (k j : K) :
    (threads env [0, 0] st [⟨e, k, j, .start⟩]).1 = (link env st e k j).1 ∧
      ((threads env [0, 0] st [⟨e, k, j, .start⟩]).2.map Th.phase) = [Phase.done (link env st e k j).2] := by
  rw [link_steps]
  simp only [threads, List.getElem?_cons_zero, step, List.set_cons_zero]
  cases linkCheck env st e k j <;> simp

/-- C119, refuted. Two threads link one passport to two customers: both look before either adds. -/
theorem threads_refuted :
    let st := history shop [Op.insert 1 7 .nil, .insert 1 8 .nil, .insert 2 5 .nil]
    let ts := [(⟨(1, false), 7, 5, .start⟩ : Th Nat), ⟨(1, false), 8, 5, .start⟩]
    getLinks shop (threads shop [0, 1, 0, 1] st ts).1 (1, true) 5 = [7, 8] ∧
    (threads shop [0, 1, 0, 1] st ts).2.map Th.phase = [.done none, .done none] ∧
    (threads shop [0, 0, 1, 1] st ts).2.map Th.phase = [.done none, .done (some .navConstraint)] := by
  decide +kernel

end Verif.Props
