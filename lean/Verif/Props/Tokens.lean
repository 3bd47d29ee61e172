import Verif.Spec.Tokens

/-!
# Nobody overwrites what they have not seen
-/

namespace Verif.Props.TK
open Verif.OData.Tokens

theorem upToDate_cons {c k o tr} : UpToDate c k (o :: tr) ↔ Sees c k o ∨ (¬ Changes k o ∧ UpToDate c k tr) := by
  constructor
  · rintro ⟨since, x, before, e, hs, hc⟩
    cases since with
    | nil => injection e with e1 e2; subst e1; exact .inl hs
    | cons y ys =>
      injection e with e1 e2; subst e1
      exact .inr ⟨hc _ (List.mem_cons_self ..), ys, x, before, e2, hs, fun z hz => hc z (List.mem_cons_of_mem _ hz)⟩
  · rintro (h | ⟨h, since, x, before, e, hs, hc⟩)
    · exact ⟨[], o, tr, rfl, h, fun _ h => nomatch h⟩
    · refine ⟨o :: since, x, before, by rw [e]; rfl, hs, fun z hz => ?_⟩
      cases hz with
      | head => exact h
      | tail _ hz => exact hc z hz

theorem unhurt_cons {c o tr} : Unhurt c (o :: tr) ↔ (∃ k, Sees c k o) ∨ ((∀ k r, o ≠ .failed c k r) ∧ Unhurt c tr) := by
  constructor
  · rintro ⟨since, x, before, e, hs, hc⟩
    cases since with
    | nil => injection e with e1 e2; subst e1; exact .inl hs
    | cons y ys =>
      injection e with e1 e2; subst e1
      exact .inr ⟨hc _ (List.mem_cons_self ..), ys, x, before, e2, hs, fun z hz => hc z (List.mem_cons_of_mem _ hz)⟩
  · rintro (h | ⟨h, since, x, before, e, hs, hc⟩)
    · exact ⟨[], o, tr, rfl, h, fun _ h => nomatch h⟩
    · refine ⟨o :: since, x, before, by rw [e]; rfl, hs, fun z hz => ?_⟩
      cases hz with
      | head => exact h
      | tail _ hz => exact hc z hz

theorem setTokens_other (sha : Text → List Nat) (T : List Property) (n : Name) : ∀ (ps : List Property) (vals : Name → Val),
    (∀ p ∈ ps, p.token = true → p.name ≠ n) → (setTokens sha T ps vals).1 n = vals n
  | [], _, _ => rfl
  | p :: ps, vals, h => by
    have hps : ∀ q ∈ ps, q.token = true → q.name ≠ n := fun q hq => h q (List.mem_cons_of_mem _ hq)
    unfold setTokens
    split
    · rename_i ht
      split
      · rename_i v _
        rw [setTokens_other sha T n ps _ hps]
        have := h p (List.mem_cons_self ..) ht
        simp [setVal, Ne.symm this]
      · rfl
    · exact setTokens_other sha T n ps _ hps

theorem setTokens_int (sha : Text → List Nat) (T : List Property) {p : Property} {max : Int} (ht : p.token = true) (hk : p.kind = .int max) :
    ∀ (ps : List Property) (vals vals' : Name → Val), p ∈ ps → (ps.map (·.name)).Nodup → setTokens sha T ps vals = (vals', .ok) →
    (vals p.name = .null ∧ vals' p.name = .int 1) ∨ ∃ i, vals p.name = .int i ∧ i < max ∧ vals' p.name = .int (i + 1)
  | [], _, _, h, _, _ => nomatch h
  | q :: ps, vals, vals', hp, hn, e => by
    have hn' := List.nodup_cons.1 hn
    unfold setTokens at e
    rcases List.mem_cons.1 hp with rfl | hp
    · have hps : ∀ q ∈ ps, q.token = true → q.name ≠ p.name := fun q hq _ he =>
        hn'.1 (List.mem_map.2 ⟨q, hq, he⟩)
      rw [if_pos ht] at e
      split at e
      · rename_i v hv
        have h1 := setTokens_other sha T p.name ps (setVal vals p.name v) hps
        rw [e] at h1
        simp only [setVal, if_true] at h1
        simp only [nextToken, hk] at hv
        split at hv
        · injection hv with hv; subst hv; rename_i h0; exact .inl ⟨h0, h1⟩
        · rename_i i h0
          split at hv
          · cases hv
          · injection hv with hv; subst hv; exact .inr ⟨i, h0, by omega, h1⟩
        · cases hv
      · rename_i o hv
        injection e with _ e; subst e
        simp only [nextToken, hk] at hv
        split at hv
        · cases hv
        · split at hv <;> cases hv
        · cases hv
    · have hne : q.name ≠ p.name := fun he => hn'.1 (List.mem_map.2 ⟨p, hp, he.symm⟩)
      split at e
      · split at e
        · rename_i v _
          have := setTokens_int sha T ht hk ps _ vals' hp hn'.2 e
          simpa [setVal, Ne.symm hne] using this
        · rename_i o hv
          injection e with _ e; subst e
          exfalso
          simp only [nextToken] at hv
          split at hv
          · cases hv
          · cases hv
          · split at hv
            · cases hv
            · split at hv <;> cases hv
            · cases hv
          · cases hv
      · exact setTokens_int sha T ht hk ps vals vals' hp hn'.2 e

/-- The client sees no one else's events. -/
theorem sees_wrote {c d k j} (h : Sees c k (.wrote d j)) : d = c ∧ j = k := by
  rcases h with h | h | h <;> cases h; exact ⟨rfl, rfl⟩
theorem sees_read {c d k j} (h : Sees c k (.read d j)) : d = c ∧ j = k := by
  rcases h with h | h | h <;> cases h; exact ⟨rfl, rfl⟩
theorem sees_inserted {c d k j} (h : Sees c k (.inserted d j)) : d = c ∧ j = k := by
  rcases h with h | h | h <;> cases h; exact ⟨rfl, rfl⟩
theorem not_sees_failed {c d k j o} (h : Sees c k (.failed d j o)) : False := by
  rcases h with h | h | h <;> cases h
theorem not_sees_absent {c d k j} (h : Sees c k (.absent d j)) : False := by
  rcases h with h | h | h <;> cases h
theorem not_sees_refused {c d k j o} (h : Sees c k (.refused d j o)) : False := by
  rcases h with h | h | h <;> cases h
theorem not_sees_deleted {c k j} (h : Sees c k (.deleted j)) : False := by
  rcases h with h | h | h <;> cases h

/-- What every step is, for the store of SQL: nothing happens to table, holdings and events other than one of these. -/
inductive Small (sha : Text → List Nat) (T : List Property) : World → Op → World → List Obs → Prop
  | nothing {w op} : Small sha T w op w []
  | absent {w c k l} : Small sha T w (.read c k l) w [.absent c k]
  | read {w c k l r} : w.table k = some r →
      Small sha T w (.read c k l) { w with hold := setHold w.hold c ⟨k, l, picked l r⟩ } [.read c k]
  | set {w c n v e} : w.hold c = some e →
      Small sha T w (.set c n v) { w with hold := setHold w.hold c { e with vals := setVal e.vals n v } } []
  | wrote {w c f e r vals} : w.hold c = some e → w.table e.key = some r → setTokens sha T T e.vals = (vals, .ok) → agrees T e r = true →
      Small sha T w (.update c f)
        ⟨setRow w.table e.key (some (assigned T e vals r)), setHold w.hold c { e with vals := vals }⟩ [.wrote c e.key]
  | failed {w c f e vals o} : w.hold c = some e → o ≠ .ok →
      Small sha T w (.update c f) { w with hold := setHold w.hold c { e with vals := vals } } [.failed c e.key o]
  | inserted {w c k l vals} {e : Entity} : e.key = k → e.selected = none → w.table k = none →
      Small sha T w (.insert c k l)
        ⟨setRow w.table k (some (assigned T e vals fun _ => .null)), setHold w.hold c { e with vals := vals }⟩ [.inserted c k]
  | refused {w c k l o} : o ≠ .ok → Small sha T w (.insert c k l) w [.refused c k o]
  | deleted {w k r} : w.table k = some r → Small sha T w (.delete k) { w with table := setRow w.table k none } [.deleted k]

theorem step_small (sha : Text → List Nat) (T : List Property) (w : World) (op : Op) :
    Small sha T w op (step .sql sha T w op).1 (step .sql sha T w op).2 := by
  cases op with
  | read c k l =>
    simp only [step]
    split
    · exact .absent
    · rename_i r h; exact .read h
  | set c n v =>
    simp only [step]
    split
    · exact .nothing
    · rename_i e h; exact .set h
  | update c f =>
    simp only [step]
    split
    · exact .nothing
    · rename_i e h
      cases hs : setTokens sha T T e.vals with
      | mk vals o =>
        by_cases ho : o = .ok
        · subst ho
          by_cases hf : (f || (fields T e).isEmpty) = true
          · simp only [updateSQL, hs, hf, if_true]
            exact .failed h (fun h => nomatch h)
          · cases ht : w.table e.key with
            | none =>
              simp only [updateSQL, hs, hf, ht]
              by_cases hx : (fields T e).any (·.token) = true
              · simp only [hx, if_true]; exact .failed h (fun h => nomatch h)
              · simp only [hx]; exact .failed h (fun h => nomatch h)
            | some r =>
              by_cases ha : agrees T e r = true
              · simp only [updateSQL, hs, hf, ht, ha, if_true]
                exact .wrote h ht hs ha
              · simp only [updateSQL, hs, hf, ht, ha]
                exact .failed h (fun h => nomatch h)
        · have hu : updateSQL sha T f e w.table = ({ e with vals := vals }, w.table, o) := by
            simp only [updateSQL, hs]
          rw [hu]
          cases o <;> first | exact absurd rfl ho | exact .failed h (fun h => nomatch h)
  | insert c k l =>
    simp only [step]
    generalize hf : l.foldl (fun f x => setVal f x.1 x.2) (fun _ => Val.null) = f0
    cases hs : setTokens sha T T f0 with
    | mk vals o =>
      by_cases ho : o = .ok
      · subst ho
        cases ht : w.table k with
        | none =>
          simp only [insertSQL, hs, ht]
          exact .inserted (e := ⟨k, none, f0⟩) rfl rfl ht
        | some r =>
          simp only [insertSQL, hs, ht]
          exact .refused (fun h => nomatch h)
      · have hu : insertSQL sha T ⟨k, none, f0⟩ w.table = (⟨k, none, vals⟩, w.table, o) := by
          simp only [insertSQL, hs]
        rw [hu]
        cases o <;> first | exact absurd rfl ho | exact .refused (fun h => nomatch h)
  | delete k =>
    simp only [step]
    split
    · exact .nothing
    · rename_i r h; exact .deleted h

theorem hold_set {h : Client → Option Entity} {c d : Client} {e x : Entity} (hd : setHold h c e d = some x) :
    (d = c ∧ x = e) ∨ (d ≠ c ∧ h d = some x) := by
  unfold setHold at hd
  split at hd
  · rename_i hc; injection hd with hd; exact .inl ⟨hc, hd.symm⟩
  · rename_i hc; exact .inr ⟨hc, hd⟩

theorem row_same {t : Table} {k : Key} {r : Option Row} : setRow t k r k = r := by simp [setRow]
theorem row_other {t : Table} {k j : Key} {r : Option Row} (h : j ≠ k) : setRow t k r j = t j := by simp [setRow, h]

theorem assigned_at {T : List Property} {e : Entity} {vals : Name → Val} {r : Row} {p : Property} (hp : p ∈ T) (hk : p.isKey = false)
    (hs : e.sel p.name = true) : assigned T e vals r p.name = vals p.name := by
  have : (fields T e).any (·.name == p.name) = true :=
    List.any_eq_true.2 ⟨p, List.mem_filter.2 ⟨hp, by simp [hs, hk]⟩, by simp⟩
  simp [assigned, this]

theorem picked_at {l : Option (List Name)} {r : Row} {n : Name} (h : ∀ x, l = some x → n ∈ x) : picked l r n = r n := by
  cases l with
  | none => rfl
  | some x => simp [picked, h x rfl]

theorem sel_read {k l vals} {n : Name} (h : ∀ x, l = some x → n ∈ x) : Entity.sel ⟨k, l, vals⟩ n = true := by
  cases l with
  | none => rfl
  | some x => simp [Entity.sel, h x rfl]

/-- The step is one that clients make who leave the property alone, and no key is used again. -/
def Fair (n : Name) (done : List Op) (op : Op) : Prop :=
  (∀ c k l, op = .read c k (some l) → n ∈ l) ∧ (∀ c v, op ≠ .set c n v) ∧ ∀ c k v, op = .insert c k v → .delete k ∉ done

/-- Clients hold what is selected, and what they hold is stored unless it was deleted; those that are up to date and unhurt have
the stored value of the property. -/
def Inv (n : Name) (done : List Op) (w : World) (tr : List Obs) : Prop :=
  ∀ c e, w.hold c = some e → e.sel n = true ∧ (w.table e.key = none → .delete e.key ∈ done) ∧
    (Unhurt c tr → UpToDate c e.key tr → ∃ r, w.table e.key = some r ∧ e.vals n = r n)

theorem inv_step {sha T w w' op obs done tr} {p : Property} (hp : p ∈ T) (hk : p.isKey = false) (h : Inv p.name done w tr)
    (hf : Fair p.name done op) (hs : Small sha T w op w' obs) : Inv p.name (done ++ [op]) w' (obs ++ tr) := by
  have grow : ∀ k, Op.delete k ∈ done → Op.delete k ∈ done ++ [op] := fun k hk => List.mem_append_left _ hk
  intro c e he
  cases hs with
  | nothing => exact ⟨(h c e he).1, fun ht => grow _ ((h c e he).2.1 ht), (h c e he).2.2⟩
  | absent =>
    refine ⟨(h c e he).1, fun ht => grow _ ((h c e he).2.1 ht), fun hu hd => (h c e he).2.2 ?_ ?_⟩
    · rcases unhurt_cons.1 hu with ⟨_, hx⟩ | hx
      · exact (not_sees_absent hx).elim
      · exact hx.2
    · rcases upToDate_cons.1 hd with hx | hx
      · exact (not_sees_absent hx).elim
      · exact hx.2
  | @read d k l r hr =>
    have hl : ∀ x, l = some x → p.name ∈ x := fun x hx => hf.1 d k x (by rw [hx])
    rcases hold_set he with ⟨rfl, rfl⟩ | ⟨hne, he⟩
    · exact ⟨sel_read hl, fun ht => absurd (hr.symm.trans ht) (fun h => nomatch h), fun _ _ => ⟨r, hr, picked_at hl⟩⟩
    · refine ⟨(h c e he).1, fun ht => grow _ ((h c e he).2.1 ht), fun hu hd => (h c e he).2.2 ?_ ?_⟩
      · rcases unhurt_cons.1 hu with ⟨_, hx⟩ | hx
        · exact absurd (sees_read hx).1.symm hne
        · exact hx.2
      · rcases upToDate_cons.1 hd with hx | hx
        · exact absurd (sees_read hx).1.symm hne
        · exact hx.2
  | @set d n v e0 h0 =>
    rcases hold_set he with ⟨rfl, rfl⟩ | ⟨hne, he⟩
    · have hn : p.name ≠ n := fun hx => hf.2.1 c v (by rw [hx])
      refine ⟨(h c e0 h0).1, fun ht => grow _ ((h c e0 h0).2.1 ht), fun hu hd => ?_⟩
      obtain ⟨r, hr, hv⟩ := (h c e0 h0).2.2 hu hd
      exact ⟨r, hr, by simpa [setVal, hn] using hv⟩
    · exact ⟨(h c e he).1, fun ht => grow _ ((h c e he).2.1 ht), (h c e he).2.2⟩
  | @wrote d f e0 r vals h0 hr hv ha =>
    rcases hold_set he with ⟨rfl, rfl⟩ | ⟨hne, he⟩
    · refine ⟨(h c e0 h0).1, fun ht => ?_, fun _ _ => ⟨_, row_same, (assigned_at hp hk (h c e0 h0).1).symm⟩⟩
      simp [row_same] at ht
    · refine ⟨(h c e he).1, fun ht => ?_, fun hu hd => ?_⟩
      · by_cases hj : e.key = e0.key
        · simp [hj, row_same] at ht
        · exact grow _ ((h c e he).2.1 ((row_other hj).symm.trans ht))
      · have hu' : Unhurt c tr := by
          rcases unhurt_cons.1 hu with ⟨_, hx⟩ | hx
          · exact absurd (sees_wrote hx).1.symm hne
          · exact hx.2
        rcases upToDate_cons.1 hd with hx | ⟨hx, hd'⟩
        · exact absurd (sees_wrote hx).1.symm hne
        · by_cases hj : e.key = e0.key
          · exact absurd (.inl ⟨d, by rw [hj]⟩) hx
          · obtain ⟨r', hr', hv'⟩ := (h c e he).2.2 hu' hd'
            exact ⟨r', (row_other hj).trans hr', hv'⟩
  | @failed d f e0 vals o h0 ho =>
    rcases hold_set he with ⟨rfl, rfl⟩ | ⟨hne, he⟩
    · refine ⟨(h c e0 h0).1, fun ht => grow _ ((h c e0 h0).2.1 ht), fun hu _ => ?_⟩
      rcases unhurt_cons.1 hu with ⟨_, hx⟩ | hx
      · exact (not_sees_failed hx).elim
      · exact absurd rfl (hx.1 _ _)
    · refine ⟨(h c e he).1, fun ht => grow _ ((h c e he).2.1 ht), fun hu hd => (h c e he).2.2 ?_ ?_⟩
      · rcases unhurt_cons.1 hu with ⟨_, hx⟩ | hx
        · exact (not_sees_failed hx).elim
        · exact hx.2
      · rcases upToDate_cons.1 hd with hx | hx
        · exact (not_sees_failed hx).elim
        · exact hx.2
  | @inserted d k l vals e0 hkey hsel ht0 =>
    have h0 : e0.sel p.name = true := by simp [Entity.sel, hsel]
    rcases hold_set he with ⟨rfl, rfl⟩ | ⟨hne, he⟩
    · refine ⟨h0, fun ht => ?_, fun _ _ => ⟨_, by show setRow w.table k _ e0.key = _; rw [hkey]; exact row_same, (assigned_at hp hk h0).symm⟩⟩
      simp [hkey, row_same] at ht
    · refine ⟨(h c e he).1, fun ht => ?_, fun hu hd => ?_⟩
      · by_cases hj : e.key = k
        · simp [hj, row_same] at ht
        · exact grow _ ((h c e he).2.1 ((row_other hj).symm.trans ht))
      · have hu' : Unhurt c tr := by
          rcases unhurt_cons.1 hu with ⟨_, hx⟩ | hx
          · exact absurd (sees_inserted hx).1.symm hne
          · exact hx.2
        rcases upToDate_cons.1 hd with hx | ⟨hx, hd'⟩
        · exact absurd (sees_inserted hx).1.symm hne
        · by_cases hj : e.key = k
          · exact absurd (.inr (.inl ⟨d, by rw [hj]⟩)) hx
          · obtain ⟨r', hr', hv'⟩ := (h c e he).2.2 hu' hd'
            exact ⟨r', (row_other hj).trans hr', hv'⟩
  | refused =>
    refine ⟨(h c e he).1, fun ht => grow _ ((h c e he).2.1 ht), fun hu hd => (h c e he).2.2 ?_ ?_⟩
    · rcases unhurt_cons.1 hu with ⟨_, hx⟩ | hx
      · exact (not_sees_refused hx).elim
      · exact hx.2
    · rcases upToDate_cons.1 hd with hx | hx
      · exact (not_sees_refused hx).elim
      · exact hx.2
  | @deleted k r hr =>
    refine ⟨(h c e he).1, fun ht => ?_, fun hu hd => ?_⟩
    · by_cases hj : e.key = k
      · rw [hj]; exact List.mem_append_right _ (List.mem_singleton.2 rfl)
      · exact grow _ ((h c e he).2.1 ((row_other hj).symm.trans ht))
    · have hu' : Unhurt c tr := by
        rcases unhurt_cons.1 hu with ⟨_, hx⟩ | hx
        · exact (not_sees_deleted hx).elim
        · exact hx.2
      rcases upToDate_cons.1 hd with hx | ⟨hx, hd'⟩
      · exact (not_sees_deleted hx).elim
      · by_cases hj : e.key = k
        · exact absurd (.inr (.inr (by rw [hj]))) hx
        · obtain ⟨r', hr', hv'⟩ := (h c e he).2.2 hu' hd'
          exact ⟨r', (row_other hj).trans hr', hv'⟩

/-- For a token that counts: no unhurt client has a later value than the stored one, and only clients that are up to date have the
same; whoever wrote while unhurt was up to date. -/
def Count (n : Name) (w : World) (tr : List Obs) : Prop :=
  (∀ c e, w.hold c = some e → Unhurt c tr → ∀ i, e.vals n = .int i → ∀ r, w.table e.key = some r →
    ∃ j, r n = .int j ∧ i ≤ j ∧ (i = j → UpToDate c e.key tr)) ∧
  ∀ later c k earlier, tr = later ++ .wrote c k :: earlier → Unhurt c earlier → UpToDate c k earlier

theorem wrote_tail {o : Obs} {tr : List Obs} (h : ∀ later c k earlier, tr = later ++ .wrote c k :: earlier → Unhurt c earlier → UpToDate c k earlier)
    (ho : ∀ c k, o = .wrote c k → Unhurt c tr → UpToDate c k tr) :
    ∀ later c k earlier, o :: tr = later ++ .wrote c k :: earlier → Unhurt c earlier → UpToDate c k earlier := by
  intro later c k earlier e
  cases later with
  | nil => injection e with e1 e2; subst e2; exact ho c k e1
  | cons x xs => injection e with e1 e2; exact h xs c k earlier e2

theorem count_step {sha T w w' op obs done tr} {p : Property} {max : Int} (hp : p ∈ T) (hk : p.isKey = false) (ht : p.token = true)
    (hi : p.kind = .int max) (hn : (T.map (·.name)).Nodup) (h : Inv p.name done w tr) (hc : Count p.name w tr)
    (hf : Fair p.name done op) (hs : Small sha T w op w' obs) : Count p.name w' (obs ++ tr) := by
  cases hs with
  | nothing => exact hc
  | absent =>
    refine ⟨fun c e he hu i hv r hr => ?_, wrote_tail hc.2 (fun _ _ h => nomatch h)⟩
    have hu' : Unhurt c tr := by
      rcases unhurt_cons.1 hu with ⟨_, hx⟩ | hx
      · exact (not_sees_absent hx).elim
      · exact hx.2
    obtain ⟨j, h1, h2, h3⟩ := hc.1 c e he hu' i hv r hr
    refine ⟨j, h1, h2, fun hx => upToDate_cons.2 (.inr ⟨?_, h3 hx⟩)⟩
    rintro (⟨_, hx⟩ | ⟨_, hx⟩ | hx) <;> cases hx
  | @read d k l r0 hr0 =>
    have hl : ∀ x, l = some x → p.name ∈ x := fun x hx => hf.1 d k x (by rw [hx])
    refine ⟨fun c e he hu i hv r hr => ?_, wrote_tail hc.2 (fun _ _ h => nomatch h)⟩
    rcases hold_set he with ⟨rfl, rfl⟩ | ⟨hne, he⟩
    · have : r0 = r := by simpa [hr0] using hr
      subst this
      refine ⟨i, ?_, Int.le_refl _, fun _ => upToDate_cons.2 (.inl (.inl rfl))⟩
      rw [← hv]; exact (picked_at hl).symm
    · have hu' : Unhurt c tr := by
        rcases unhurt_cons.1 hu with ⟨_, hx⟩ | hx
        · exact absurd (sees_read hx).1.symm hne
        · exact hx.2
      obtain ⟨j, h1, h2, h3⟩ := hc.1 c e he hu' i hv r hr
      refine ⟨j, h1, h2, fun hx => upToDate_cons.2 (.inr ⟨?_, h3 hx⟩)⟩
      rintro (⟨_, hx⟩ | ⟨_, hx⟩ | hx) <;> cases hx
  | @set d n v e0 h0 =>
    refine ⟨fun c e he hu i hv r hr => ?_, hc.2⟩
    rcases hold_set he with ⟨rfl, rfl⟩ | ⟨hne, he⟩
    · have hn : p.name ≠ n := fun hx => hf.2.1 c v (by rw [hx])
      exact hc.1 c e0 h0 hu i (by simpa [setVal, hn] using hv) r hr
    · exact hc.1 c e he hu i hv r hr
  | @wrote d f e0 r0 vals h0 hr0 hv0 ha =>
    have hsel := (h d e0 h0).1
    have hmem : p ∈ fields T e0 := List.mem_filter.2 ⟨hp, by simp [hsel, hk]⟩
    have hag := List.all_eq_true.1 ha p hmem
    simp only [ht, Bool.not_true, Bool.false_or, Bool.and_eq_true, bne_iff_ne, beq_iff_eq] at hag
    obtain ⟨i0, hi0, _, hi1⟩ : ∃ i, e0.vals p.name = .int i ∧ i < max ∧ vals p.name = .int (i + 1) := by
      rcases setTokens_int sha T ht hi T _ _ hp hn hv0 with ⟨hx, _⟩ | hx
      · exact absurd hx hag.1
      · exact hx
    have hrow : assigned T e0 vals r0 p.name = .int (i0 + 1) := by rw [assigned_at hp hk hsel, hi1]
    refine ⟨fun c e he hu i hv r hr => ?_, wrote_tail hc.2 ?_⟩
    · rcases hold_set he with ⟨rfl, rfl⟩ | ⟨hne, he⟩
      · have hr : some (assigned T e0 vals r0) = some r := by rw [← hr]; exact row_same.symm
        injection hr with hr
        subst hr
        have hv : vals p.name = .int i := hv
        rw [hi1] at hv
        injection hv with hv
        exact ⟨i0 + 1, hrow, by omega, fun _ => upToDate_cons.2 (.inl (.inr (.inl rfl)))⟩
      · have hu' : Unhurt c tr := by
          rcases unhurt_cons.1 hu with ⟨_, hx⟩ | hx
          · exact absurd (sees_wrote hx).1.symm hne
          · exact hx.2
        by_cases hj : e.key = e0.key
        · have hr : some (assigned T e0 vals r0) = some r := by rw [← hr]; simp [hj, setRow]
          injection hr with hr
          subst hr
          obtain ⟨j, h1, h2, _⟩ := hc.1 c e he hu' i hv r0 (by rw [hj]; exact hr0)
          rw [hag.2, hi0] at h1
          injection h1 with h1
          exact ⟨i0 + 1, hrow, by omega, fun hx => by omega⟩
        · have hr : w.table e.key = some r := by rw [← hr]; simp [hj, setRow]
          obtain ⟨j, h1, h2, h3⟩ := hc.1 c e he hu' i hv r hr
          refine ⟨j, h1, h2, fun hx => upToDate_cons.2 (.inr ⟨?_, h3 hx⟩)⟩
          rintro (⟨_, hx⟩ | ⟨_, hx⟩ | hx)
          · injection hx with _ hx; exact hj hx.symm
          · cases hx
          · cases hx
    · intro c k hx hu
      injection hx with hx1 hx2
      subst hx1; subst hx2
      obtain ⟨j, h1, _, h3⟩ := hc.1 d e0 h0 hu i0 hi0 r0 hr0
      rw [hag.2, hi0] at h1
      injection h1 with h1
      exact h3 h1
  | @failed d f e0 vals o h0 ho =>
    refine ⟨fun c e he hu i hv r hr => ?_, wrote_tail hc.2 (fun _ _ h => nomatch h)⟩
    rcases hold_set he with ⟨rfl, rfl⟩ | ⟨hne, he⟩
    · rcases unhurt_cons.1 hu with ⟨_, hx⟩ | hx
      · exact (not_sees_failed hx).elim
      · exact absurd rfl (hx.1 _ _)
    · have hu' : Unhurt c tr := by
        rcases unhurt_cons.1 hu with ⟨_, hx⟩ | hx
        · exact (not_sees_failed hx).elim
        · exact hx.2
      obtain ⟨j, h1, h2, h3⟩ := hc.1 c e he hu' i hv r hr
      refine ⟨j, h1, h2, fun hx => upToDate_cons.2 (.inr ⟨?_, h3 hx⟩)⟩
      rintro (⟨_, hx⟩ | ⟨_, hx⟩ | hx) <;> cases hx
  | @inserted d k l vals e0 hkey hsel ht0 =>
    have hs0 : e0.sel p.name = true := by simp [Entity.sel, hsel]
    refine ⟨fun c e he hu i hv r hr => ?_, wrote_tail hc.2 (fun _ _ h => nomatch h)⟩
    rcases hold_set he with ⟨rfl, rfl⟩ | ⟨hne, he⟩
    · have hr : some (assigned T e0 vals fun _ => .null) = some r := by rw [← hr]; simp [hkey, setRow]
      injection hr with hr
      subst hr
      refine ⟨i, ?_, Int.le_refl _, fun _ => upToDate_cons.2 (.inl (.inr (.inr (by show Obs.inserted _ _ = Obs.inserted _ e0.key; rw [hkey]))))⟩
      rw [assigned_at hp hk hs0]; exact hv
    · have hu' : Unhurt c tr := by
        rcases unhurt_cons.1 hu with ⟨_, hx⟩ | hx
        · exact absurd (sees_inserted hx).1.symm hne
        · exact hx.2
      by_cases hj : e.key = k
      · exact absurd ((h c e he).2.1 (by rw [hj]; exact ht0)) (by rw [hj]; exact hf.2.2 d k l rfl)
      · have hr : w.table e.key = some r := by rw [← hr]; simp [hj, setRow]
        obtain ⟨j, h1, h2, h3⟩ := hc.1 c e he hu' i hv r hr
        refine ⟨j, h1, h2, fun hx => upToDate_cons.2 (.inr ⟨?_, h3 hx⟩)⟩
        rintro (⟨_, hx⟩ | ⟨_, hx⟩ | hx) <;> cases hx
        exact hj rfl
  | refused =>
    refine ⟨fun c e he hu i hv r hr => ?_, wrote_tail hc.2 (fun _ _ h => nomatch h)⟩
    have hu' : Unhurt c tr := by
      rcases unhurt_cons.1 hu with ⟨_, hx⟩ | hx
      · exact (not_sees_refused hx).elim
      · exact hx.2
    obtain ⟨j, h1, h2, h3⟩ := hc.1 c e he hu' i hv r hr
    refine ⟨j, h1, h2, fun hx => upToDate_cons.2 (.inr ⟨?_, h3 hx⟩)⟩
    rintro (⟨_, hx⟩ | ⟨_, hx⟩ | hx) <;> cases hx
  | @deleted k r0 hr0 =>
    refine ⟨fun c e he hu i hv r hr => ?_, wrote_tail hc.2 (fun _ _ h => nomatch h)⟩
    have hu' : Unhurt c tr := by
      rcases unhurt_cons.1 hu with ⟨_, hx⟩ | hx
      · exact (not_sees_deleted hx).elim
      · exact hx.2
    by_cases hj : e.key = k
    · simp [hj, setRow] at hr
    · have hr : w.table e.key = some r := by rw [← hr]; simp [hj, setRow]
      obtain ⟨j, h1, h2, h3⟩ := hc.1 c e he hu' i hv r hr
      refine ⟨j, h1, h2, fun hx => upToDate_cons.2 (.inr ⟨?_, h3 hx⟩)⟩
      rintro (⟨_, hx⟩ | ⟨_, hx⟩ | hx) <;> cases hx
      exact hj rfl

theorem fair_of {n : Name} {done : List Op} {op : Op} {ops : List Op} (ha : LeavesAlone n (done ++ op :: ops)) (hr : ¬ Reborn (done ++ op :: ops)) :
    Fair n done op := by
  have hm : op ∈ done ++ op :: ops := List.mem_append_right _ (List.mem_cons_self ..)
  refine ⟨fun c k l e => ha.1 c k l (e ▸ hm), fun c v e => ha.2 c v (e ▸ hm), fun c k v e hd => hr ?_⟩
  obtain ⟨a, b, hab⟩ := List.append_of_mem hd
  exact ⟨a, k, b, c, v, ops, by rw [hab, e]; simp⟩

theorem inv_run {sha T} {p : Property} (hp : p ∈ T) (hk : p.isKey = false) : ∀ (ops done : List Op) (s : World × List Obs),
    LeavesAlone p.name (done ++ ops) → ¬ Reborn (done ++ ops) → Inv p.name done s.1 s.2 →
    Inv p.name (done ++ ops) (ops.foldl (fun s op => let r := step .sql sha T s.1 op; (r.1, r.2 ++ s.2)) s).1
      (ops.foldl (fun s op => let r := step .sql sha T s.1 op; (r.1, r.2 ++ s.2)) s).2
  | [], done, s, _, _, h => by simpa using h
  | op :: ops, done, s, ha, hr, h => by
    have h1 := inv_step hp hk h (fair_of ha hr) (step_small sha T s.1 op)
    have := inv_run (sha := sha) hp hk ops (done ++ [op]) (((step .sql sha T s.1 op).1), (step .sql sha T s.1 op).2 ++ s.2)
      (by simpa using ha) (by simpa using hr) h1
    simpa using this

theorem count_run {sha T} {p : Property} {max : Int} (hp : p ∈ T) (hk : p.isKey = false) (ht : p.token = true)
    (hi : p.kind = .int max) (hn : (T.map (·.name)).Nodup) : ∀ (ops done : List Op) (s : World × List Obs),
    LeavesAlone p.name (done ++ ops) → ¬ Reborn (done ++ ops) → Inv p.name done s.1 s.2 → Count p.name s.1 s.2 →
    Count p.name (ops.foldl (fun s op => let r := step .sql sha T s.1 op; (r.1, r.2 ++ s.2)) s).1
      (ops.foldl (fun s op => let r := step .sql sha T s.1 op; (r.1, r.2 ++ s.2)) s).2
  | [], _, _, _, _, _, hc => hc
  | op :: ops, done, s, ha, hr, h, hc => by
    have h1 := inv_step hp hk h (fair_of ha hr) (step_small sha T s.1 op)
    have h2 := count_step hp hk ht hi hn h hc (fair_of ha hr) (step_small sha T s.1 op)
    exact count_run hp hk ht hi hn ops (done ++ [op]) (((step .sql sha T s.1 op).1), (step .sql sha T s.1 op).2 ++ s.2)
      (by simpa using ha) (by simpa using hr) h1 h2

/-- **With a token that counts nobody overwrites what they have not seen**: if there is a token of an integer type that clients
always select and never set, and no key is used again after a deletion, then whoever overwrites an entity, without having failed to
update since they last saw one, has seen what they overwrite — whatever the others do. -/
theorem counting_token_no_lost_update (sha : Text → List Nat) (T : List Property) (hn : (T.map (·.name)).Nodup)
    (p : Property) (hp : p ∈ T) (hk : p.isKey = false) (ht : p.token = true) (max : Int) (hi : p.kind = .int max)
    (w : World) (hw : Start w) (ops : List Op) (ha : LeavesAlone p.name ops) (hr : ¬ Reborn ops) :
    ∀ later c k earlier, (run .sql sha T w ops).2 = later ++ .wrote c k :: earlier → Unhurt c earlier → UpToDate c k earlier :=
  (count_run (sha := sha) hp hk ht hi hn ops [] (w, []) (by simpa using ha) (by simpa using hr)
    (fun c e he => by rw [hw c] at he; cases he)
    ⟨fun c e he => (by rw [hw c] at he; cases he), fun later c k earlier e => (by cases later <;> cases e)⟩).2

end Verif.Props.TK
