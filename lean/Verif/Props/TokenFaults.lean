import Verif.Props.Tokens

/-!
# What updates with tokens do, and where tokens fail
-/

namespace Verif.Props.TK
open Verif.OData.Tokens

theorem last_cons {c k o tr} : Last c k (o :: tr) ↔ Sees c k o ∨ ((∀ j, ¬ Sees c j o) ∧ Last c k tr) := by
  constructor
  · rintro ⟨since, x, before, e, hs, hc⟩
    cases since with
    | nil => injection e with e1 e2; subst e1; exact .inl hs
    | cons y ys =>
      injection e with e1 e2; subst e1
      exact .inr ⟨hc _ (List.mem_cons_self ..), ys, x, before, e2, hs, fun z hz => hc z (List.mem_cons_of_mem _ hz)⟩
  · rintro (h | ⟨h, since, x, before, e, hs, hc⟩)
    · exact ⟨[], o, tr, rfl, h, fun _ h => nomatch h⟩
    · refine ⟨o :: since, x, before, by rw [e]; rfl, hs, fun z hz => ?_⟩
      cases hz with
      | head => exact h
      | tail _ hz => exact hc z hz

theorem setHold_same {h : Client → Option Entity} {c : Client} {e : Entity} : setHold h c e c = some e := by simp [setHold]
theorem setHold_other {h : Client → Option Entity} {c d : Client} {e : Entity} (hd : d ≠ c) : setHold h c e d = h d := by simp [setHold, hd]

/-- Clients hold what they saw last. -/
def Held (w : World) (tr : List Obs) : Prop := ∀ c k, Last c k tr → ∃ e, w.hold c = some e ∧ e.key = k

theorem held_step {sha T w w' op obs tr} (h : Held w tr) (hs : Small sha T w op w' obs) : Held w' (obs ++ tr) := by
  intro c k hl
  cases hs with
  | nothing => exact h c k hl
  | absent =>
    rcases last_cons.1 hl with hx | hx
    · exact (not_sees_absent hx).elim
    · exact h c k hx.2
  | @read d j l r hr =>
    rcases last_cons.1 hl with hx | hx
    · obtain ⟨rfl, rfl⟩ := sees_read hx; exact ⟨_, setHold_same, rfl⟩
    · have hne : c ≠ d := fun he => hx.1 j (.inl (by rw [he]))
      obtain ⟨e, he, hk⟩ := h c k hx.2
      exact ⟨e, (setHold_other hne).trans he, hk⟩
  | @set d n v e0 h0 =>
    obtain ⟨e, he, hk⟩ := h c k hl
    by_cases hc : c = d
    · subst hc
      rw [h0] at he; injection he with he; subst he
      exact ⟨_, setHold_same, hk⟩
    · exact ⟨e, (setHold_other hc).trans he, hk⟩
  | @wrote d f e0 r vals h0 hr hv ha =>
    rcases last_cons.1 hl with hx | hx
    · obtain ⟨rfl, rfl⟩ := sees_wrote hx; exact ⟨_, setHold_same, rfl⟩
    · have hne : c ≠ d := fun he => hx.1 e0.key (.inr (.inl (by rw [he])))
      obtain ⟨e, he, hk⟩ := h c k hx.2
      exact ⟨e, (setHold_other hne).trans he, hk⟩
  | @failed d f e0 vals o h0 ho =>
    rcases last_cons.1 hl with hx | hx
    · exact (not_sees_failed hx).elim
    · obtain ⟨e, he, hk⟩ := h c k hx.2
      by_cases hc : c = d
      · subst hc
        rw [h0] at he; injection he with he; subst he
        exact ⟨_, setHold_same, hk⟩
      · exact ⟨e, (setHold_other hc).trans he, hk⟩
  | @inserted d j l vals e0 hkey hsel ht0 =>
    rcases last_cons.1 hl with hx | hx
    · obtain ⟨rfl, rfl⟩ := sees_inserted hx; exact ⟨_, setHold_same, hkey⟩
    · have hne : c ≠ d := fun he => hx.1 j (.inr (.inr (by rw [he])))
      obtain ⟨e, he, hk⟩ := h c k hx.2
      exact ⟨e, (setHold_other hne).trans he, hk⟩
  | refused =>
    rcases last_cons.1 hl with hx | hx
    · exact (not_sees_refused hx).elim
    · exact h c k hx.2
  | deleted =>
    rcases last_cons.1 hl with hx | hx
    · exact (not_sees_deleted hx).elim
    · exact h c k hx.2

theorem held_run {sha T} : ∀ (ops : List Op) (s : World × List Obs), Held s.1 s.2 →
    Held (ops.foldl (fun s op => let r := step .sql sha T s.1 op; (r.1, r.2 ++ s.2)) s).1
      (ops.foldl (fun s op => let r := step .sql sha T s.1 op; (r.1, r.2 ++ s.2)) s).2
  | [], _, h => h
  | op :: ops, s, h => held_run ops _ (held_step h (step_small sha T s.1 op))

theorem setTokens_ok (sha : Text → List Nat) (T : List Property) : ∀ (ps : List Property) (vals : Name → Val),
    (ps.map (·.name)).Nodup → (∀ p ∈ ps, p.token = true → Advances p (vals p.name)) → (setTokens sha T ps vals).2 = .ok
  | [], _, _, _ => rfl
  | q :: ps, vals, hn, h => by
    have hn' := List.nodup_cons.1 hn
    have hps : ∀ p ∈ ps, p.token = true → Advances p (vals p.name) := fun p hp => h p (List.mem_cons_of_mem _ hp)
    unfold setTokens
    split
    · rename_i ht
      have hq := h q (List.mem_cons_self ..) ht
      have key : ∃ v, nextToken sha T vals q = .ok v := by
        unfold Advances at hq
        unfold nextToken
        split at hq
        · rename_i max hk
          obtain ⟨i, hi, hlt⟩ := hq
          rw [hk]
          simp only [hi]
          exact ⟨_, if_neg (by omega)⟩
        · rename_i hk; rw [hk]; exact ⟨_, rfl⟩
        · rename_i hk; rw [hk]; exact ⟨_, rfl⟩
        · exact hq.elim
      obtain ⟨v, hv⟩ := key
      rw [hv]
      refine setTokens_ok sha T ps _ hn'.2 fun p hp ht' => ?_
      have hne : p.name ≠ q.name := fun he => hn'.1 (List.mem_map.2 ⟨p, hp, he⟩)
      simpa [setVal, hne] using hps p hp ht'
    · exact setTokens_ok sha T ps _ hn'.2 hps

/-- **Whoever is up to date can update**: with tokens that can be advanced, that clients always select and never set, an update by a
client that has seen what is stored, and has not failed to update since, succeeds. -/
theorem up_to_date_updates (sha : Text → List Nat) (T : List Property) (hn : (T.map (·.name)).Nodup)
    (htok : ∃ p ∈ T, p.token = true) (hkey : ∀ p ∈ T, p.token = true → p.isKey = false)
    (w : World) (hw : Start w) (ops : List Op) (ha : ∀ p ∈ T, p.token = true → LeavesAlone p.name ops) (hr : ¬ Reborn ops)
    (c : Client) (k : Key) (hl : Last c k (run .sql sha T w ops).2) (hu : Unhurt c (run .sql sha T w ops).2)
    (hd : UpToDate c k (run .sql sha T w ops).2)
    (hadv : ∀ r, (run .sql sha T w ops).1.table k = some r → ∀ p ∈ T, p.token = true → Advances p (r p.name)) :
    (step .sql sha T (run .sql sha T w ops).1 (.update c false)).2 = [.wrote c k] := by
  obtain ⟨e, he, hek⟩ := held_run (sha := sha) (T := T) ops (w, []) (fun c k h => by obtain ⟨s, o, b, hx, _⟩ := h; cases s <;> cases hx) c k hl
  have hinv : ∀ p ∈ T, p.token = true → Inv p.name ops (run .sql sha T w ops).1 (run .sql sha T w ops).2 := fun p hp ht =>
    inv_run (sha := sha) hp (hkey p hp ht) ops [] (w, []) (by simpa using ha p hp ht) (by simpa using hr)
      (fun c e he => by rw [hw c] at he; cases he)
  have he : (run .sql sha T w ops).1.hold c = some e := he
  generalize hs : run .sql sha T w ops = s at *
  obtain ⟨p0, hp0, ht0⟩ := htok
  obtain ⟨r, hr0, _⟩ := (hinv p0 hp0 ht0 c e he).2.2 hu (hek ▸ hd)
  have hval : ∀ p ∈ T, p.token = true → e.sel p.name = true ∧ e.vals p.name = r p.name := fun p hp ht => by
    obtain ⟨r', hr', hv⟩ := (hinv p hp ht c e he).2.2 hu (hek ▸ hd)
    rw [hr0] at hr'; injection hr' with hr'; subst hr'
    exact ⟨(hinv p hp ht c e he).1, hv⟩
  have hav : ∀ p ∈ T, p.token = true → Advances p (e.vals p.name) := fun p hp ht => by
    rw [(hval p hp ht).2]; exact hadv r (hek ▸ hr0) p hp ht
  have hok := setTokens_ok sha T T e.vals hn hav
  have hemp : (fields T e).isEmpty = false := by
    have : p0 ∈ fields T e := List.mem_filter.2 ⟨hp0, by simp [(hval p0 hp0 ht0).1, hkey p0 hp0 ht0]⟩
    cases hf : fields T e with
    | nil => rw [hf] at this; cases this
    | cons _ _ => rfl
  have hag : agrees T e r = true := by
    refine List.all_eq_true.2 fun p hp => ?_
    have hp' := List.mem_filter.1 hp
    by_cases ht : p.token = true
    · have h1 := hav p hp'.1 ht
      have h2 := (hval p hp'.1 ht).2
      have h3 : e.vals p.name ≠ .null := by
        intro h0
        rw [h0] at h1
        unfold Advances at h1
        split at h1
        · obtain ⟨i, hi, _⟩ := h1; cases hi
        · exact h1 rfl
        · exact h1 rfl
        · exact h1
      simp [h3, ← h2]
    · simp [ht]
  cases hst : setTokens sha T T e.vals with
  | mk vals o =>
    rw [hst] at hok
    simp only at hok
    subst hok
    subst hek
    simp [step, he, updateSQL, hst, hemp, hr0, hag]

theorem same_name {p q : Property} {T : List Property} (hn : (T.map (·.name)).Nodup) (hq : q ∈ T) (hp : p ∈ T) (he : q.name = p.name) : q = p := by
  induction T with
  | nil => cases hp
  | cons x xs ih =>
    have hx := List.nodup_cons.1 hn
    rcases List.mem_cons.1 hp with rfl | hp'
    · rcases List.mem_cons.1 hq with rfl | hq'
      · rfl
      · exact absurd (List.mem_map.2 ⟨q, hq', he⟩) hx.1
    · rcases List.mem_cons.1 hq with rfl | hq'
      · exact absurd (List.mem_map.2 ⟨p, hp', he.symm⟩) hx.1
      · exact ih hx.2 hq' hp'

/-- **An update changes the selected properties and the tokens, and nothing else**, and it succeeds only if the entity has the
stored tokens, which are not NULL. -/
theorem update_changes (sha : Text → List Nat) (T : List Property) (w : World) (c : Client) (fails : Bool) (k : Key)
    (h : (step .sql sha T w (.update c fails)).2 = [.wrote c k]) (hn : (T.map (·.name)).Nodup) :
    ∃ e e', w.hold c = some e ∧ e.key = k ∧ (step .sql sha T w (.update c fails)).1.hold c = some e' ∧
      Updated T e e' w.table (step .sql sha T w (.update c fails)).1.table := by
  have hs := step_small sha T w (.update c fails)
  generalize step .sql sha T w (.update c fails) = s at *
  obtain ⟨w', obs⟩ := s
  simp only at h hs
  subst h
  cases hs with
  | @wrote _ _ e r vals h0 hr hv ha =>
    refine ⟨e, _, h0, rfl, setHold_same, fun j hj => row_other hj, r, _, hr, row_same, ?_, ?_, ?_⟩
    · intro p hp hk hsel ht
      rw [assigned_at hp hk hsel]
      have := setTokens_other sha T p.name T e.vals (fun q hq hqt he => ?_)
      · rw [hv] at this; exact this
      · have : q = p := same_name hn hq hp he
        rw [this, ht] at hqt; cases hqt
    · intro p hp hk hsel ht
      have hmem : p ∈ fields T e := List.mem_filter.2 ⟨hp, by simp [hsel, hk]⟩
      have hag := List.all_eq_true.1 ha p hmem
      simp only [ht, Bool.not_true, Bool.false_or, Bool.and_eq_true, bne_iff_ne, beq_iff_eq] at hag
      exact ⟨hag.2, by rw [hag.2]; exact hag.1, assigned_at hp hk hsel⟩
    · intro n hn'
      have : (fields T e).any (·.name == n) = false := by
        rw [List.any_eq_false]
        intro p hp he
        have hp' := List.mem_filter.1 hp
        have he : p.name = n := by simpa using he
        have h2 : e.sel p.name = true ∧ p.isKey = false := by simpa using hp'.2
        rcases hn' p hp'.1 he with hx | hx
        · rw [hx] at h2; cases h2.2
        · rw [he, hx] at h2; cases h2.1
      simp [assigned, this]

/-- **An update that fails changes nothing that is stored.** -/
theorem failed_update_keeps (sha : Text → List Nat) (T : List Property) (w : World) (c : Client) (fails : Bool) (k : Key) (o : Outcome)
    (h : (step .sql sha T w (.update c fails)).2 = [.failed c k o]) : (step .sql sha T w (.update c fails)).1.table = w.table := by
  have hs := step_small sha T w (.update c fails)
  generalize step .sql sha T w (.update c fails) = s at *
  obtain ⟨w', obs⟩ := s
  simp only at h hs
  subst h
  cases hs with
  | failed => rfl

theorem setTokens_bad (sha : Text → List Nat) (T : List Property) {p : Property} (ht : p.token = true)
    (hk : p.kind = .dateTime ∨ p.kind = .dateTimeOffset ∨ p.kind = .guid ∨ p.kind = .other) :
    ∀ (ps : List Property) (vals : Name → Val), p ∈ ps → (setTokens sha T ps vals).2 ≠ .ok
  | [], _, h => nomatch h
  | q :: ps, vals, h => by
    unfold setTokens
    rcases List.mem_cons.1 h with rfl | h
    · rw [if_pos ht]
      have : nextToken sha T vals p = .error .nameError := by
        unfold nextToken
        rcases hk with hk | hk | hk | hk <;> rw [hk]
      rw [this]
      exact fun h => nomatch h
    · split
      · split
        · exact setTokens_bad sha T ht hk ps _ h
        · rename_i o hv
          intro ho
          simp only at ho
          subst ho
          unfold nextToken at hv
          split at hv
          · cases hv
          · cases hv
          · split at hv
            · cases hv
            · split at hv <;> cases hv
            · cases hv
          · cases hv
      · exact setTokens_bad sha T ht hk ps _ h

/-- **Refuted**: tokens may have any type that the documentation lists.  With a token that is a time or a GUID no entity is ever
inserted or updated. -/
theorem time_and_guid_tokens_refuted (sha : Text → List Nat) (T : List Property) (p : Property) (hp : p ∈ T) (ht : p.token = true)
    (hk : p.kind = .dateTime ∨ p.kind = .dateTimeOffset ∨ p.kind = .guid) (w : World) :
    (∀ c fails k, (step .sql sha T w (.update c fails)).2 ≠ [.wrote c k]) ∧
    ∀ c k vals, (step .sql sha T w (.insert c k vals)).2 ≠ [.inserted c k] := by
  have hk : p.kind = .dateTime ∨ p.kind = .dateTimeOffset ∨ p.kind = .guid ∨ p.kind = .other := by
    rcases hk with h | h | h <;> simp [h]
  constructor
  · intro c fails k h
    have hs := step_small sha T w (.update c fails)
    generalize step .sql sha T w (.update c fails) = s at *
    obtain ⟨w', obs⟩ := s
    simp only at h hs
    subst h
    cases hs with
    | @wrote _ _ e r vals h0 hr hv ha => exact setTokens_bad sha T ht hk T e.vals hp (by rw [hv])
  · intro c k vals h
    simp only [step] at h
    generalize vals.foldl (fun f x => setVal f x.1 x.2) (fun _ => Val.null) = f0 at h
    have hb := setTokens_bad sha T ht hk T f0 hp
    cases hs : setTokens sha T T f0 with
    | mk v o =>
      rw [hs] at hb
      have hu : insertSQL sha T ⟨k, none, f0⟩ w.table = (⟨k, none, v⟩, w.table, o) := by
        simp only [insertSQL, hs]
      rw [hu] at h
      cases o <;> first | exact absurd rfl hb | cases h

/-- An entity type with a name (1) and a counting token (0). -/
def counted : List Property := [{ name := 0, kind := .int16, token := true }, { name := 1, kind := .string }]

/-- One entity, with this token. -/
def stored (v : Val) : World :=
  ⟨fun k => if k = 0 then some fun n => if n = 0 then v else .text ['a'] else none, fun _ => none⟩

theorem not_upToDate {c k} {a b : List Obs} {o : Obs} (ho : Changes k o) (hs : ¬ Sees c k o) (ha : ∀ x ∈ a, ¬ Sees c k x) :
    ¬ UpToDate c k (a ++ o :: b) := by
  induction a with
  | nil => 
    intro h
    rcases upToDate_cons.1 h with h | h
    · exact hs h
    · exact h.1 ho
  | cons x xs ih =>
    intro h
    rcases upToDate_cons.1 h with h | h
    · exact ha x (List.mem_cons_self ..) h
    · exact ih (fun y hy => ha y (List.mem_cons_of_mem _ hy)) h.2

/-- **Refuted**: an update that is repeated after a conflict overwrites only what the client has seen.  The first attempt has
advanced the token of the entity: two clients read, the second updates, the update of the first is refused, and accepted when it is
repeated. -/
theorem repeated_update_refuted : ¬ ∀ (sha : Text → List Nat) (w : World) (ops : List Op), Start w → LeavesAlone 0 ops → ¬ Reborn ops →
    NoLostUpdate (run .sql sha counted w ops).2 := by
  intro h
  have h := h (fun _ => []) (stored (.int 1)) [.read 0 0 none, .read 1 0 none, .set 1 1 (.text ['b']), .update 1 false,
    .set 0 1 (.text ['c']), .update 0 false, .update 0 false] (fun _ => rfl)
    ⟨by simp, by simp⟩ (by
      rintro ⟨a, k, b, c, v, d, e⟩
      have := congrArg (fun l => l.any fun o => match o with | .delete _ => true | _ => false) e
      simp at this)
    [] 0 0 [.failed 0 0 .conflict, .wrote 1 0, .read 1 0, .read 0 0] rfl
  exact not_upToDate (a := [.failed 0 0 .conflict]) (o := .wrote 1 0) (.inl ⟨1, rfl⟩) (by rintro (h | h | h) <;> cases h)
    (by intro x hx; rw [List.mem_singleton.1 hx]; exact not_sees_failed) h

/-- **Refuted**: the same if a key is used again: the token starts again. -/
theorem used_again_refuted : ¬ ∀ (sha : Text → List Nat) (w : World) (ops : List Op), Start w → LeavesAlone 0 ops →
    ∀ later c k earlier, (run .sql sha counted w ops).2 = later ++ .wrote c k :: earlier → Unhurt c earlier → UpToDate c k earlier := by
  intro h
  have h := h (fun _ => []) (stored (.int 1)) [.read 0 0 none, .delete 0, .insert 1 0 [(1, .text ['b'])], .update 0 false] (fun _ => rfl)
    ⟨by simp, by simp⟩ [] 0 0 [.inserted 1 0, .deleted 0, .read 0 0] rfl
    ⟨[.inserted 1 0, .deleted 0], .read 0 0, [], rfl, ⟨0, .inl rfl⟩, by simp⟩
  exact not_upToDate (a := []) (o := .inserted 1 0) (.inr (.inl ⟨1, rfl⟩)) (by rintro (h | h | h) <;> cases h) (by simp) h

/-- **Refuted**: clients that select the tokens are safe from those that do not.  An update without the token leaves the token as
it was. -/
theorem partial_selection_refuted : ¬ ∀ (sha : Text → List Nat) (w : World) (ops : List Op) (c : Client), Start w → ¬ Reborn ops →
    (∀ k l, .read c k (some l) ∈ ops → 0 ∈ l) → (∀ d v, .set d 0 v ∉ ops) →
    ∀ later k earlier, (run .sql sha counted w ops).2 = later ++ .wrote c k :: earlier → Unhurt c earlier → UpToDate c k earlier := by
  intro h
  have h := h (fun _ => []) (stored (.int 1)) [.read 0 0 none, .read 1 0 (some [1]), .set 1 1 (.text ['b']), .update 1 false,
    .set 0 1 (.text ['c']), .update 0 false] 0 (fun _ => rfl) (by
      rintro ⟨a, k, b, c, v, d, e⟩
      have := congrArg (fun l => l.any fun o => match o with | .delete _ => true | _ => false) e
      simp at this) (by simp) (by simp)
    [] 0 [.wrote 1 0, .read 1 0, .read 0 0] rfl
    ⟨[.wrote 1 0, .read 1 0], .read 0 0, [], rfl, ⟨0, .inl rfl⟩, by simp⟩
  exact not_upToDate (a := []) (o := .wrote 1 0) (.inl ⟨1, rfl⟩) (by rintro (h | h | h) <;> cases h) (by simp) h

/-- **Refuted**: whoever has just read an entity can update it.  Not if its token is NULL, as no row has a token that equals NULL. -/
theorem null_token_refuted (sha : Text → List Nat) :
    (run .sql sha counted (stored .null) [.read 0 0 none, .update 0 false]).2 = [.failed 0 0 .conflict, .read 0 0] := rfl

/-- **Refuted**: nor if the token has reached the end of its type. -/
theorem last_token_refuted (sha : Text → List Nat) :
    (run .sql sha counted (stored (.int 32767)) [.read 0 0 none, .update 0 false]).2 = [.failed 0 0 .valueError, .read 0 0] := rfl

/-- **Refuted**: the store in memory keeps clients from overwriting what they have not seen.  It does not look at tokens. -/
theorem memory_store_refuted : ¬ ∀ (sha : Text → List Nat) (w : World) (ops : List Op), Start w → LeavesAlone 0 ops → ¬ Reborn ops →
    ∀ later c k earlier, (run .memory sha counted w ops).2 = later ++ .wrote c k :: earlier → Unhurt c earlier → UpToDate c k earlier := by
  intro h
  have h := h (fun _ => []) (stored (.int 1)) [.read 0 0 none, .read 1 0 none, .set 1 1 (.text ['b']), .update 1 false,
    .set 0 1 (.text ['c']), .update 0 false] (fun _ => rfl)
    ⟨by simp, by simp⟩ (by
      rintro ⟨a, k, b, c, v, d, e⟩
      have := congrArg (fun l => l.any fun o => match o with | .delete _ => true | _ => false) e
      simp at this)
    [] 0 0 [.wrote 1 0, .read 1 0, .read 0 0] rfl
    ⟨[.wrote 1 0, .read 1 0], .read 0 0, [], rfl, ⟨0, .inl rfl⟩, by simp⟩
  exact not_upToDate (a := []) (o := .wrote 1 0) (.inl ⟨1, rfl⟩) (by rintro (h | h | h) <;> cases h) (by simp) h

/-- An entity type with two names and a token that is a hash. -/
def hashed : List Property := [{ name := 0, kind := .string, token := true }, { name := 1, kind := .string }, { name := 2, kind := .string }]

/-- One entity, with names and the token that its insertion gave it. -/
def named (sha : Text → List Nat) (a b : Text) : World :=
  ⟨fun k => if k = 0 then
    some fun n => if n = 0 then .text (hex lower (sha (a ++ b))) else if n = 1 then .text a else .text b else none, fun _ => none⟩

/-- **Refuted**: with a token that is a hash nobody overwrites what they have not seen.  Values are hashed without anything between
them: moving a letter from one property to the next is not noticed, whatever the hash. -/
theorem hash_token_refuted (sha : Text → List Nat) : ∃ w ops, Start w ∧ LeavesAlone 0 ops ∧ ¬ Reborn ops ∧
    ∃ later c k earlier, (run .sql sha hashed w ops).2 = later ++ .wrote c k :: earlier ∧ Unhurt c earlier ∧ ¬ UpToDate c k earlier := by
  refine ⟨named sha ['x', 'y'] ['z'], [.read 0 0 none, .read 1 0 none, .set 1 1 (.text ['x']), .set 1 2 (.text ['y', 'z']), .update 1 false,
    .set 0 2 (.text ['w']), .update 0 false], fun _ => rfl, ⟨by simp, by simp⟩, ?_,
    [], 0, 0, [.wrote 1 0, .read 1 0, .read 0 0], ?_, ⟨[.wrote 1 0, .read 1 0], .read 0 0, [], rfl, ⟨0, .inl rfl⟩, by simp⟩, ?_⟩
  · rintro ⟨a, k, b, c, v, d, e⟩
    have := congrArg (fun l => l.any fun o => match o with | .delete _ => true | _ => false) e
    simp at this
  · simp [run, step, named, hashed, setHold, updateSQL, setTokens, nextToken, fit, hashText, literal, setVal, fields, agrees, Entity.sel,
      picked, assigned, setRow]
  · exact not_upToDate (a := []) (o := .wrote 1 0) (.inl ⟨1, rfl⟩) (by rintro (h | h | h) <;> cases h) (by simp)

/-- A history that the theorems are about: two clients, one of whom is refused, reads again and succeeds. -/
theorem tokens_example (sha : Text → List Nat) :
    (run .sql sha counted (stored (.int 1)) [.read 0 0 none, .read 1 0 (some [0, 1]), .set 1 1 (.text ['b']), .update 1 false,
      .set 0 1 (.text ['c']), .update 0 false, .read 0 0 none, .set 0 1 (.text ['c']), .update 0 false, .update 0 false]).2 =
    [.wrote 0 0, .wrote 0 0, .read 0 0, .failed 0 0 .conflict, .wrote 1 0, .read 1 0, .read 0 0] ∧
    ∃ r, (run .sql sha counted (stored (.int 1)) [.read 0 0 none, .read 1 0 (some [0, 1]), .set 1 1 (.text ['b']), .update 1 false,
      .set 0 1 (.text ['c']), .update 0 false, .read 0 0 none, .set 0 1 (.text ['c']), .update 0 false, .update 0 false]).1.table 0 = some r ∧
      r 0 = .int 4 ∧ r 1 = .text ['c'] := ⟨rfl, _, rfl, rfl, rfl⟩

/-- The theorem about counting tokens applies to it. -/
theorem tokens_example_fair (sha : Text → List Nat) : ∀ later c k earlier,
    (run .sql sha counted (stored (.int 1)) [.read 0 0 none, .read 1 0 (some [0, 1]), .set 1 1 (.text ['b']), .update 1 false,
      .set 0 1 (.text ['c']), .update 0 false, .read 0 0 none, .set 0 1 (.text ['c']), .update 0 false, .update 0 false]).2 =
      later ++ .wrote c k :: earlier → Unhurt c earlier → UpToDate c k earlier :=
  counting_token_no_lost_update sha counted (by decide) { name := 0, kind := .int16, token := true } (List.mem_cons_self ..) rfl rfl
    32767 rfl _ (fun _ => rfl) _ ⟨by simp; rintro _ _ _ _ _ rfl; decide, by simp⟩ (by
      rintro ⟨a, k, b, c, v, d, e⟩
      have := congrArg (fun l => l.any fun o => match o with | .delete _ => true | _ => false) e
      simp at this)

/-- And so does the one about updates that succeed. -/
theorem tokens_example_live (sha : Text → List Nat) :
    (step .sql sha counted (run .sql sha counted (stored (.int 1)) [.read 0 0 none, .set 0 1 (.text ['b'])]).1 (.update 0 false)).2 =
      [.wrote 0 0] :=
  up_to_date_updates sha counted (by decide) ⟨_, List.mem_cons_self .., rfl⟩ (by decide) _ (fun _ => rfl) _
    (by
      intro p hp ht
      have : p = { name := 0, kind := .int16, token := true } := by
        rcases List.mem_cons.1 hp with h | h
        · exact h
        · rw [List.mem_singleton.1 h] at ht; cases ht
      subst this
      exact ⟨by simp, by simp⟩)
    (by
      rintro ⟨a, k, b, c, v, d, e⟩
      have := congrArg (fun l => l.any fun o => match o with | .delete _ => true | _ => false) e
      simp at this)
    0 0 ⟨[], .read 0 0, [], rfl, .inl rfl, by simp⟩ ⟨[], .read 0 0, [], rfl, ⟨0, .inl rfl⟩, by simp⟩
    ⟨[], .read 0 0, [], rfl, .inl rfl, by simp⟩
    (by
      intro r hr p hp ht
      have : p = { name := 0, kind := .int16, token := true } := by
        rcases List.mem_cons.1 hp with h | h
        · exact h
        · rw [List.mem_singleton.1 h] at ht; cases ht
      subst this
      injection hr with hr
      subst hr
      exact ⟨1, rfl, by decide⟩)

end Verif.Props.TK
