import Verif.Props.MemLinks

/-!
# Further properties of links between entities

C120: linking, unlinking and replacing change what they say and nothing else.  C121: an entity that was inserted or updated is
linked to what was bound to it.
-/

set_option linter.unusedVariables false
set_option linter.unusedSimpArgs false
set_option linter.unusedSectionVars false

namespace Verif.Props

open Verif.MemLinks Verif.Spec.MemLinks

variable {K : Type} [DecidableEq K]

/-! ### C120 -/

/-- C120. Linking that succeeds adds the link, in both directions, and nothing else. -/
theorem link_exact (env : Env K) (henv : EnvOk env) (ops : List (Op K)) (e : EndId) (k j : K)
    (hr : (run env (history env ops) (.link e k j)).2 = none) :
    let st := history env ops
    let st' := (run env st (.link e k j)).1
    st'.data = st.data ∧ ∀ e' k' j', Linked env st' e' k' j' ↔
      Linked env st e' k' j' ∨ (e' = e ∧ k' = k ∧ j' = j) ∨ (e' = e.other ∧ k' = j ∧ j' = k) := by
  have h := good_history henv ops
  have h' := good_run henv (history env ops) (.link e k j) h
  generalize history env ops = st at h h' hr ⊢
  simp only [run] at h' hr ⊢
  split at hr
  · rename_i hn
    rw [if_pos hn] at h' ⊢
    refine ⟨(link_data env st e k j).1, ?_⟩
    intro e' k' j'
    unfold Linked
    rw [mem_getLinks henv h', mem_getLinks henv h]
    rcases link_cases henv h e k j with hc | hc
    · rw [hc.1]
      have hl := hc.2 hr
      constructor
      · exact .inl
      · rintro (hx | ⟨q1, q2, q3⟩ | ⟨q1, q2, q3⟩)
        · exact hx
        · subst q1 q2 q3; exact hl
        · subst q1 q2 q3; exact (lk_other _ _ _ _).mpr hl
    · rw [hc.1]
      exact lk_addAt _ _ _ _ _ _ _
  · cases hr

/-- C120. Unlinking that succeeds removes the link, which was there, in both directions, and nothing else. -/
theorem unlink_exact (env : Env K) (henv : EnvOk env) (ops : List (Op K)) (e : EndId) (k j : K)
    (hr : (run env (history env ops) (.unlink e k j)).2 = none) :
    let st := history env ops
    let st' := (run env st (.unlink e k j)).1
    st'.data = st.data ∧ Linked env st e k j ∧ ∀ e' k' j', Linked env st' e' k' j' ↔
      Linked env st e' k' j' ∧ ¬(e' = e ∧ k' = k ∧ j' = j) ∧ ¬(e' = e.other ∧ k' = j ∧ j' = k) := by
  have h := good_history henv ops
  have h' := good_run henv (history env ops) (.unlink e k j) h
  generalize history env ops = st at h h' hr ⊢
  simp only [run] at h' hr ⊢
  split at hr
  · rename_i hn
    rw [if_pos hn] at h' ⊢
    unfold unlink at h' hr ⊢
    split at hr
    · cases hr
    · rename_i h1
      rw [if_neg h1] at h' ⊢
      split at hr
      · cases hr
      · rename_i h2
        rw [if_neg h2] at h' ⊢
        refine ⟨(removeAt_data st e k j).1, Classical.byContradiction h2, ?_⟩
        intro e' k' j'
        unfold Linked
        rw [mem_getLinks henv h', mem_getLinks henv h]
        exact lk_removeAt _ _ _ _ _ _ _
  · cases hr

theorem replace_cases2 {env : Env K} (henv : EnvOk env) {st : St K} (h : Good st) (e : EndId) (k j : K)
    (hr : (replace env st e k j).2 = none) :
    ((replace env st e k j).1 = st ∧ ∀ i, Lk st e k i ↔ i = j) ∨
    ((replace env st e k j).1 = addAt st e k j ∧ ∀ i, ¬ Lk st e k i) ∨
    (∀ e' k' j', Lk (replace env st e k j).1 e' k' j' ↔
      (Lk st e' k' j' ∧ ¬(e' = e ∧ k' = k) ∧ ¬(e' = e.other ∧ j' = k)) ∨ (e' = e ∧ k' = k ∧ j' = j) ∨ (e' = e.other ∧ k' = j ∧ j' = k)) := by
  rcases replace_cases henv h e k j with hc | hc | hc
  · exact .inl ⟨hc.1, hc.2 hr⟩
  · rw [hc.1] at hr ⊢
    rcases link_cases henv h e k j with hl | hl
    · exact absurd (hl.2 hr) (hc.2 j)
    · exact .inr (.inl ⟨by rw [hl.1], hc.2⟩)
  · exact .inr (.inr hc.2.2.2.2.2)

/-- C120. Replacing that succeeds leaves exactly the link asked for at the property; the other entities' links, in this
and other associations, are as before. -/
theorem replace_exact (env : Env K) (henv : EnvOk env) (ops : List (Op K)) (e : EndId) (k j : K)
    (hr : (run env (history env ops) (.replace e k j)).2 = none) :
    let st := history env ops
    let st' := (run env st (.replace e k j)).1
    st'.data = st.data ∧ (∀ i, Linked env st' e k i ↔ i = j) ∧
    ∀ e' k' j', ¬(e' = e ∧ k' = k) → ¬(e' = e.other ∧ j' = k) → (Linked env st' e' k' j' ↔ Linked env st e' k' j') := by
  have h := good_history henv ops
  have h' := good_run henv (history env ops) (.replace e k j) h
  generalize history env ops = st at h h' hr ⊢
  simp only [run] at h' hr ⊢
  split at hr
  · rename_i hn
    rw [if_pos hn] at h' ⊢
    have key : ∀ e' k' j', Lk (replace env st e k j).1 e' k' j' ↔
        (Lk st e' k' j' ∧ ¬(e' = e ∧ k' = k) ∧ ¬(e' = e.other ∧ j' = k)) ∨ (e' = e ∧ k' = k ∧ j' = j) ∨ (e' = e.other ∧ k' = j ∧ j' = k) := by
      rcases replace_cases2 henv h e k j hr with hc | hc | hc
      · rw [hc.1]
        intro e' k' j'
        have hone := hc.2
        constructor
        · intro hl
          by_cases h1 : e' = e ∧ k' = k
          · obtain ⟨q1, q2⟩ := h1
            subst q1 q2
            exact .inr (.inl ⟨rfl, rfl, (hone j').mp hl⟩)
          · by_cases h2 : e' = e.other ∧ j' = k
            · obtain ⟨q1, q2⟩ := h2
              subst q1 q2
              exact .inr (.inr ⟨rfl, (hone k').mp ((lk_other _ _ _ _).mp hl), rfl⟩)
            · exact .inl ⟨hl, h1, h2⟩
        · rintro (hx | ⟨q1, q2, q3⟩ | ⟨q1, q2, q3⟩)
          · exact hx.1
          · subst q1 q2 q3; exact (hone _).mpr rfl
          · subst q1 q2 q3; exact (lk_other _ _ _ _).mpr ((hone _).mpr rfl)
      · rw [hc.1]
        intro e' k' j'
        rw [lk_addAt]
        have hnone := hc.2
        constructor
        · rintro (hl | hl | hl)
          · refine .inl ⟨hl, ?_, ?_⟩
            · rintro ⟨q1, q2⟩; subst q1 q2; exact hnone _ hl
            · rintro ⟨q1, q2⟩; subst q1 q2; exact hnone _ ((lk_other _ _ _ _).mp hl)
          · exact .inr (.inl hl)
          · exact .inr (.inr hl)
        · rintro (hl | hl | hl)
          · exact .inl hl.1
          · exact .inr (.inl hl)
          · exact .inr (.inr hl)
      · exact hc
    refine ⟨(replace_data henv h e k j).1, ?_, ?_⟩
    · intro i
      unfold Linked
      rw [mem_getLinks henv h', key]
      constructor
      · rintro (hx | ⟨_, _, hx⟩ | ⟨hx, _⟩)
        · exact absurd ⟨rfl, rfl⟩ hx.2.1
        · exact hx
        · exact absurd hx.symm (other_ne e)
      · intro hx
        exact .inr (.inl ⟨rfl, rfl, hx⟩)
    · intro e' k' j' h1 h2
      unfold Linked
      rw [mem_getLinks henv h', mem_getLinks henv h, key]
      constructor
      · rintro (hx | ⟨q1, q2, _⟩ | ⟨q1, _, q2⟩)
        · exact hx.1
        · exact absurd ⟨q1, q2⟩ h1
        · exact absurd ⟨q1, q2⟩ h2
      · intro hx
        exact .inl ⟨hx, h1, h2⟩
  · cases hr

/-- Non-vacuity of the theorems above. -/
theorem exact_hypotheses :
    let st := history shop [Op.insert 1 7 .nil, .insert 2 5 .nil, .insert 2 6 .nil, .link (1, false) 7 5]
    (run shop st (.unlink (1, false) 7 5)).2 = none ∧ (run shop st (.replace (1, false) 7 6)).2 = none ∧
    (run shop st (.link (1, true) 6 7)).2 = some .navConstraint ∧ (run shop st (.link (1, true) 5 7)).2 = none ∧
    getLinks shop (run shop st (.replace (1, false) 7 6)).1 (1, false) 7 = [6] := by
  decide +kernel

/-! ### C121 -/

/-- The key of what is bound. -/
def bound : MemLinks.Bind K → K
  | .key j => j
  | .old j => j
  | .new j _ => j

/-- What is bound to which property. -/
def Binds.pairs : Binds K → List (EndId × K)
  | .nil => []
  | .cons e b rest => (e, bound b) :: Binds.pairs rest

/-- Properties with a single value are bound once, as in `BindEntity`. -/
def SingleOnce (env : Env K) : Binds K → Prop
  | .nil => True
  | .cons e _ rest => ((env.far e).mult ≠ .many → rest.has e = false) ∧ SingleOnce env rest

theorem bindOld_keep {env : Env K} (henv : EnvOk env) {st : St K} (h : Good st) (e : EndId) (k j : K) (e0 : EndId) (a b : K)
    (hl : Lk st e0 a b) : Lk (bindOld env st e k j).1 e0 a b ∨
      ((env.far e).mult ≠ .many ∧ ((e0 = e ∧ a = k) ∨ (e0 = e.other ∧ b = k))) := by
  have hlink : Lk (link env st e k j).1 e0 a b := by
    rcases link_cases henv h e k j with hc | hc
    · rw [hc.1]; exact hl
    · rw [hc.1]; exact (lk_addAt _ _ _ _ _ _ _).mpr (.inl hl)
  unfold bindOld
  split
  · exact .inl hlink
  · rename_i hm
    rcases replace_cases henv h e k j with hc | hc | hc
    · rw [hc.1]; exact .inl hl
    · rw [hc.1]; exact .inl hlink
    · by_cases h1 : e0 = e ∧ a = k
      · exact .inr ⟨hm, .inl h1⟩
      · by_cases h2 : e0 = e.other ∧ b = k
        · exact .inr ⟨hm, .inr h2⟩
        · exact .inl ((hc.2.2.2.2.2 _ _ _).mpr (.inl ⟨hl, h1, h2⟩))

mutual
theorem bind_keep {env : Env K} (henv : EnvOk env) (st : St K) (e : EndId) (k : K) (b : MemLinks.Bind K) (h : LinkSound env st)
    (hn : env.isNav e = true) (hin : ((env.near e).set, k) ∈ st.data) (hb : FreshBind env st.data e b) (e0 : EndId) (x y : K)
    (hl : Lk st e0 x y) : Lk (MemLinks.bind env st e k b).1 e0 x y ∨
      ((env.far e).mult ≠ .many ∧ ((e0 = e ∧ x = k) ∨ (e0 = e.other ∧ y = k))) := by
  cases b with
  | key j =>
    simp only [MemLinks.bind]
    split
    · exact bindOld_keep henv h.good e k j e0 x y hl
    · exact .inl hl
  | old j =>
    simp only [MemLinks.bind]
    exact bindOld_keep henv h.good e k j e0 x y hl
  | new j bs =>
    simp only [MemLinks.bind]
    left
    have hins : Lk ((addNew env st (env.far e).set j bs (some e.other)).andThen fun st => binds env st (env.far e).set j bs).1 e0 x y ∧
        Good ((addNew env st (env.far e).set j bs (some e.other)).andThen fun st => binds env st (env.far e).set j bs).1 := by
      rcases addNew_cases env st (env.far e).set j bs (some e.other) with ha | ha
      · have : ((addNew env st (env.far e).set j bs (some e.other)).andThen fun st => binds env st (env.far e).set j bs).1 = st := by
          unfold Res.andThen
          split
          · rename_i hx; exact absurd hx ha.2
          · exact ha.1
        rw [this]
        exact ⟨hl, h.good⟩
      · rw [ha.1]
        show Lk (binds env { st with data := st.data ++ [((env.far e).set, j)] } (env.far e).set j bs).1 e0 x y ∧
          Good (binds env { st with data := st.data ++ [((env.far e).set, j)] } (env.far e).set j bs).1
        have hs1 : LinkSound env { st with data := st.data ++ [((env.far e).set, j)] } :=
          (sound_steps henv).add st _ _ h ha.2.1
        have hfb : FreshBinds env (st.data ++ [((env.far e).set, j)]) bs :=
          fresh_mono env (fun x hx => List.mem_append_left _ hx) bs hb
        refine ⟨?_, (binds_keeps henv (sound_steps henv) _ (env.far e).set j bs hs1 (fun _ => by simp) (fun _ => hfb)).1.good⟩
        rcases binds_keep henv _ (env.far e).set j bs hs1 (by simp) hfb e0 x y hl with hk | ⟨_, _, hk, hx⟩ | ⟨_, _, hk, hx⟩
        · exact hk
        · exfalso
          have := h.near e0 x y hl
          rw [hk, hx] at this
          exact ha.2.1 this
        · exfalso
          have := h.far e0 x y hl
          rw [hk, hx] at this
          exact ha.2.1 this
    generalize ((addNew env st (env.far e).set j bs (some e.other)).andThen fun st => binds env st (env.far e).set j bs) = r at hins ⊢
    unfold Res.andThen
    split
    · show Lk (link env r.1 e k j).1 e0 x y
      rcases link_cases henv hins.2 e k j with hc | hc
      · rw [hc.1]; exact hins.1
      · rw [hc.1]; exact (lk_addAt _ _ _ _ _ _ _).mpr (.inl hins.1)
    · exact hins.1
theorem binds_keep {env : Env K} (henv : EnvOk env) (st : St K) (s : Nat) (k : K) (bs : Binds K) (h : LinkSound env st)
    (hin : (s, k) ∈ st.data) (hb : FreshBinds env st.data bs) (e0 : EndId) (x y : K) (hl : Lk st e0 x y) :
    Lk (binds env st s k bs).1 e0 x y ∨ (bs.has e0 = true ∧ (env.far e0).mult ≠ .many ∧ (env.near e0).set = s ∧ x = k) ∨
      (bs.has e0.other = true ∧ (env.near e0).mult ≠ .many ∧ (env.far e0).set = s ∧ y = k) := by
  cases bs with
  | nil => exact .inl hl
  | cons e b rest =>
    simp only [binds]
    split
    · rename_i hg
      have hin' : ((env.near e).set, k) ∈ st.data := by rw [hg.1]; exact hin
      have hkeeps := bind_keeps henv (sound_steps henv) st e k b h hg.2 (fun _ => hin') (fun _ => hb.1)
      have hfirst := bind_keep henv st e k b h hg.2 hin' hb.1 e0 x y hl
      rcases hfirst with hf | ⟨hm, ⟨q1, q2⟩ | ⟨q1, q2⟩⟩
      · unfold Res.andThen
        split
        · have := binds_keep henv _ s k rest hkeeps.1 (hkeeps.2.1 _ hin) (fresh_mono env hkeeps.2.1 rest hb.2) e0 x y hf
          rcases this with hr | hr | hr
          · exact .inl hr
          · exact .inr (.inl ⟨by simp [Binds.has, hr.1], hr.2⟩)
          · exact .inr (.inr ⟨by simp [Binds.has, hr.1], hr.2⟩)
        · exact .inl hf
      · right; left
        subst q1 q2
        exact ⟨by simp [Binds.has], hm, hg.1, rfl⟩
      · right; right
        subst q1 q2
        refine ⟨by simp [Binds.has, other_other], ?_, ?_, rfl⟩
        · rw [near_other]; exact hm
        · rw [far_other]; exact hg.1
    · exact .inl hl
end

/-- What is bound is linked when it is its turn. -/
theorem bind_linked {env : Env K} (henv : EnvOk env) (st : St K) (e : EndId) (k : K) (b : MemLinks.Bind K) (h : Good st)
    (hr : (MemLinks.bind env st e k b).2 = none) : Lk (MemLinks.bind env st e k b).1 e k (bound b) := by
  cases b with
  | key j =>
    simp only [MemLinks.bind] at hr ⊢
    split at hr
    · rename_i hm
      rw [if_pos hm]
      exact (kept_bindOld henv h e k j).2 hr
    · cases hr
  | old j =>
    simp only [MemLinks.bind] at hr ⊢
    exact (kept_bindOld henv h e k j).2 hr
  | new j bs =>
    simp only [MemLinks.bind] at hr ⊢
    obtain ⟨h1, h2, h3⟩ := andThen_none hr
    rw [h3]
    refine (kept_link henv ?_ e k j).2 h2
    obtain ⟨h4, h5, h6⟩ := andThen_none h1
    rw [h6]
    rcases addNew_cases env st (env.far e).set j bs (some e.other) with ha | ha
    · exact absurd h4 ha.2
    · rw [ha.1]
      exact (binds_keeps henv (good_steps henv (K := K) false) { st with data := st.data ++ [((env.far e).set, j)] } _ j bs ⟨h.agree, h.fwd, h.rev⟩ (by simp [There]) (by simp [FreshIf])).1

theorem binds_linked {env : Env K} (henv : EnvOk env) (bs : Binds K) (st : St K) (s : Nat) (k : K) (h : LinkSound env st)
    (hin : (s, k) ∈ st.data) (hb : FreshBinds env st.data bs) (ho : SingleOnce env bs)
    (hself : ∀ p ∈ Binds.pairs bs, ((env.far p.1).set, p.2) ≠ (s, k)) (hr : (binds env st s k bs).2 = none) :
    ∀ p ∈ Binds.pairs bs, Lk (binds env st s k bs).1 p.1 k p.2 := by
  match bs with
  | .nil => intro p hp; cases hp
  | .cons e b rest =>
    intro p hp
    simp only [binds] at hr ⊢
    split at hr
    · rename_i hg
      rw [if_pos hg]
      have hin' : ((env.near e).set, k) ∈ st.data := by rw [hg.1]; exact hin
      have hkeeps := bind_keeps henv (sound_steps henv) st e k b h hg.2 (fun _ => hin') (fun _ => hb.1)
      obtain ⟨h1, h2, h3⟩ := andThen_none hr
      rw [h3]
      have hfr := fresh_mono env hkeeps.2.1 rest hb.2
      rcases List.mem_cons.mp hp with hp | hp
      · subst hp
        have hl := bind_linked henv st e k b h.good h1
        rcases binds_keep henv _ s k rest hkeeps.1 (hkeeps.2.1 _ hin) hfr e k (bound b) hl with hx | hx | hx
        · exact hx
        · have := ho.1 hx.2.1
          rw [hx.1] at this
          cases this
        · exact absurd (by rw [hx.2.2.1, hx.2.2.2]) (hself (e, bound b) (by simp [Binds.pairs]))
      · exact binds_linked henv rest _ s k hkeeps.1 (hkeeps.2.1 _ hin) hfr ho.2
          (fun q hq => hself q (List.mem_cons_of_mem _ hq)) h2 p hp
    · cases hr
termination_by sizeOf bs

/-- C121, partial. After an insertion that succeeds, the entity is linked to everything that was bound to it: to entities
given by key or object and to new ones with bindings of their own.  No object of a deleted entity is used; the entity is
not bound to itself (`bound_self_refuted`). -/
theorem insert_bound_partial (env : Env K) (henv : EnvOk env) (ops : List (Op K)) (hf : FreshAll env empty ops) (s : Nat) (k : K)
    (bs : Binds K) (hb : FreshBinds env (history env ops).data bs) (ho : SingleOnce env bs)
    (hself : ∀ p ∈ Binds.pairs bs, ((env.far p.1).set, p.2) ≠ (s, k))
    (hr : (run env (history env ops) (.insert s k bs)).2 = none) :
    (s, k) ∈ (run env (history env ops) (.insert s k bs)).1.data ∧
    ∀ p ∈ Binds.pairs bs, Linked env (run env (history env ops) (.insert s k bs)).1 p.1 k p.2 := by
  have hs : LinkSound env (history env ops) := sound_runs henv ops empty (sound_empty env) hf
  have hs' := good_run henv (history env ops) (.insert s k bs) hs.good
  generalize history env ops = st at hs hs' hb hr ⊢
  simp only [run] at hr hs' ⊢
  unfold MemLinks.insert at hr hs' ⊢
  obtain ⟨h1, h2, h3⟩ := andThen_none hr
  rw [h3] at hs' ⊢
  rcases addNew_cases env st s k bs none with ha | ha
  · exact absurd h1 ha.2
  · rw [ha.1] at h2 hs' ⊢
    simp only at h2 hs' ⊢
    have hs1 := (sound_steps henv).add st s k hs ha.2.1
    have hfr := fresh_mono env (fun x hx => List.mem_append_left [(s, k)] hx) bs hb
    refine ⟨(binds_keeps henv (sound_steps henv) _ s k bs hs1 (fun _ => by simp) (fun _ => hfr)).2.1 _ (by simp), ?_⟩
    intro p hp
    exact (mem_getLinks henv hs' _ _ _).mpr
      (binds_linked henv bs { st with data := st.data ++ [(s, k)] } s k hs1 (by simp) hfr ho hself h2 p hp)

/-- C121, partial: the same for updates. -/
theorem update_bound_partial (env : Env K) (henv : EnvOk env) (ops : List (Op K)) (hf : FreshAll env empty ops) (s : Nat) (k : K)
    (bs : Binds K) (hb : FreshBinds env (history env ops).data bs) (ho : SingleOnce env bs)
    (hself : ∀ p ∈ Binds.pairs bs, ((env.far p.1).set, p.2) ≠ (s, k))
    (hr : (run env (history env ops) (.update s k bs)).2 = none) :
    ∀ p ∈ Binds.pairs bs, Linked env (run env (history env ops) (.update s k bs)).1 p.1 k p.2 := by
  have hs : LinkSound env (history env ops) := sound_runs henv ops empty (sound_empty env) hf
  have hs' := good_run henv (history env ops) (.update s k bs) hs.good
  generalize history env ops = st at hs hs' hb hr ⊢
  simp only [run, update] at hr hs' ⊢
  split at hr
  · rename_i hin
    rw [if_pos hin] at hs' ⊢
    intro p hp
    exact (mem_getLinks henv hs' _ _ _).mpr (binds_linked henv bs st s k hs hin hb ho hself hr p hp)
  · cases hr

/-- Persons with any number of friends, and at most one they are a friend of. -/
def friends : Env Nat := listEnv [⟨⟨0, .zeroOne, true⟩, ⟨0, .many, true⟩⟩]

/-- C121, refuted. A person bound to themselves as a friend and then to someone whose friend they are: the first binding
is lost. -/
theorem bound_self_refuted :
    let ops := [Op.insert 0 2 .nil]
    let op := Op.insert 0 1 (.cons (0, false) (.key 1) (.cons (0, true) (.key 2) .nil))
    EnvOk friends ∧ (run friends (history friends ops) op).2 = none ∧
      getLinks friends (run friends (history friends ops) op).1 (0, false) 1 = [] := by
  refine ⟨listEnv_nav _ (by decide), ?_, ?_⟩ <;> decide +kernel

/-- Non-vacuity of `insert_bound_partial`. -/
theorem bound_hypotheses :
    let ops := [Op.insert 2 5 .nil]
    let bs : Binds Nat := .cons (0, true) (.new 1 .nil) (.cons (0, true) (.new 2 .nil) (.cons (1, false) (.key 5) .nil))
    FreshAll shop empty ops ∧ FreshBinds shop (history shop ops).data bs ∧ SingleOnce shop bs ∧
      (∀ p ∈ Binds.pairs bs, ((shop.far p.1).set, p.2) ≠ (1, 7)) ∧ (run shop (history shop ops) (.insert 1 7 bs)).2 = none := by
  refine ⟨⟨trivial, trivial⟩, ⟨trivial, trivial, trivial, trivial⟩, ?_, ?_, ?_⟩
  · refine ⟨fun h => absurd rfl h, fun h => absurd rfl h, fun _ => rfl, trivial⟩
  · decide +kernel
  · decide +kernel

end Verif.Props
