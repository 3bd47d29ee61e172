import Verif.Spec.SqlStore

/-!
# Changes of a SQL store are made in full or not at all
-/

namespace Verif.Props.ST

open Verif.OData.Store Verif.Spec.Store

variable {α β : Type} {env : Env} {S : Schema}

/-! ## Methods with an open transaction -/

/-- In an open transaction the method commits nothing but what was there before (`d`), and gives the transaction back as it got
it. -/
def Loose (d : DB) (m : M α) : Prop :=
  ∀ t w, t.cursor = true → w.committed = d → (∀ c ∈ w.history, c = d) →
    (m (t, w)).2.1.cursor = true ∧ (m (t, w)).2.1.noCommit = t.noCommit ∧ (m (t, w)).2.2.committed = d ∧
      ∀ c ∈ (m (t, w)).2.2.history, c = d

/-- And it changes nothing. -/
def Steady (d : DB) (m : M α) : Prop :=
  ∀ t w, t.cursor = true → w.committed = d → (∀ c ∈ w.history, c = d) → w.current = d →
    (m (t, w)).2.1.cursor = true ∧ (m (t, w)).2.1.noCommit = t.noCommit ∧ (m (t, w)).2.2.committed = d ∧
      (∀ c ∈ (m (t, w)).2.2.history, c = d) ∧ (m (t, w)).2.2.current = d

theorem bind_run (m : M α) (f : α → M β) (s : Trans × World) : (m >>= f) s =
    match m s with
    | (.ok x, s') => f x s'
    | (.error e, s') => (.error e, s') := rfl

theorem pure_run (x : α) (s : Trans × World) : (pure x : M α) s = (.ok x, s) := rfl

theorem loose_pure {d : DB} (x : α) : Loose d (pure x : M α) := fun _ _ h1 h2 h3 => ⟨h1, rfl, h2, h3⟩

theorem loose_raise {d : DB} (e : Exn) : Loose d (raise e : M α) := fun _ _ h1 h2 h3 => ⟨h1, rfl, h2, h3⟩

theorem loose_bind {d : DB} {m : M α} {f : α → M β} (hm : Loose d m) (hf : ∀ x, Loose d (f x)) : Loose d (m >>= f) := by
  intro t w h1 h2 h3
  have h := hm t w h1 h2 h3
  rw [bind_run]
  rcases hr : m (t, w) with ⟨r, t', w'⟩
  rw [hr] at h
  cases r with
  | error e => exact h
  | ok x =>
    have h' := hf x t' w' h.1 h.2.2.1 h.2.2.2
    exact ⟨h'.1, h'.2.1.trans h.2.1, h'.2.2⟩

theorem steady_pure {d : DB} (x : α) : Steady d (pure x : M α) := fun _ _ h1 h2 h3 h4 => ⟨h1, rfl, h2, h3, h4⟩

theorem steady_raise {d : DB} (e : Exn) : Steady d (raise e : M α) := fun _ _ h1 h2 h3 h4 => ⟨h1, rfl, h2, h3, h4⟩

theorem steady_bind {d : DB} {m : M α} {f : α → M β} (hm : Steady d m) (hf : ∀ x, Steady d (f x)) : Steady d (m >>= f) := by
  intro t w h1 h2 h3 h4
  have h := hm t w h1 h2 h3 h4
  rw [bind_run]
  rcases hr : m (t, w) with ⟨r, t', w'⟩
  rw [hr] at h
  cases r with
  | error e => exact h
  | ok x =>
    have h' := hf x t' w' h.1 h.2.2.1 h.2.2.2.1 h.2.2.2.2
    exact ⟨h'.1, h'.2.1.trans h.2.1, h'.2.2⟩

theorem loose_execute {d : DB} (f : DB → DB × Nat) : Loose d (execute env f) := by
  intro t w h1 h2 h3
  simp only [execute]
  split
  · exact ⟨h1, rfl, h2, h3⟩
  · split
    · exact ⟨h1, rfl, h2, h3⟩
    · exact ⟨h1, rfl, h2, h3⟩

theorem loose_query {d : DB} (f : DB → α) : Loose d (query env f) := by
  intro t w h1 h2 h3
  simp only [query]
  split
  · exact ⟨h1, rfl, h2, h3⟩
  · exact ⟨h1, rfl, h2, h3⟩

theorem loose_isOld {d : DB} (b : Ent) : Loose d (isOld b) := fun _ _ h1 h2 h3 => ⟨h1, rfl, h2, h3⟩

theorem steady_isOld {d : DB} (b : Ent) : Steady d (isOld b) := fun _ _ h1 h2 h3 h4 => ⟨h1, rfl, h2, h3, h4⟩

theorem loose_mark {d : DB} (oid : Nat) : Loose d (mark oid) := fun _ _ h1 h2 h3 => ⟨h1, rfl, h2, h3⟩

theorem loose_ite {d : DB} {p : Prop} [Decidable p] {a b : M α} (ha : p → Loose d a) (hb : ¬ p → Loose d b) :
    Loose d (if p then a else b) := by
  split
  · next h => exact ha h
  · next h => exact hb h

theorem steady_ite {d : DB} {p : Prop} [Decidable p] {a b : M α} (ha : p → Steady d a) (hb : ¬ p → Steady d b) :
    Steady d (if p then a else b) := by
  split
  · next h => exact ha h
  · next h => exact hb h

/-- The body of a method with `Begin` before and `Commit` after it. -/
theorem method_run (h : Option Exn) (body : M α) (t : Trans) (w : World) :
    ∃ r s, (do begin_; let x ← body; commit env; pure x) (t, w) = (r, s) ∧
      method env h body (t, w) =
        match r with
        | .ok x => (.ok x, close s.1, s.2)
        | .error e =>
          match rollback env s with
          | (.ok _, s') => (.error (match e, h with | .integrity, some e' => e' | e, _ => reraised e), close s'.1, s'.2)
          | (.error e', s') => (.error e', close s'.1, s'.2) := by
  rcases hr : (do begin_; let x ← body; commit env; pure x : M α) (t, w) with ⟨r, s⟩
  refine ⟨r, s, rfl, ?_⟩
  rw [method, hr]
  cases r with
  | ok x => rfl
  | error e =>
    simp only
    rcases hb : rollback env s with ⟨r', s'⟩
    cases e <;> cases h <;> cases r' <;> rfl

theorem begin_nested {t : Trans} {w : World} (h : t.cursor = true) : begin_ (t, w) = (.ok (), { t with noCommit := t.noCommit + 1 }, w) := by
  simp [begin_, h]

theorem commit_nested {t : Trans} {w : World} (h : 0 < t.noCommit) : commit env (t, w) = (.ok (), t, w) := by
  simp only [commit, gt_iff_lt, h, if_true]

theorem rollback_nested {t : Trans} {w : World} (h : 0 < t.noCommit) : rollback env (t, w) = (.ok (), t, w) := by
  simp only [rollback, gt_iff_lt, h, if_true]

/-- A nested method: what the body does, with the exception replaced. -/
theorem method_nested (h : Option Exn) (body : M α) {t : Trans} {w : World} (ht : t.cursor = true)
    (hk : (body ({ t with noCommit := t.noCommit + 1 }, w)).2.1.noCommit = t.noCommit + 1) :
    method env h body (t, w) =
      ((match (body ({ t with noCommit := t.noCommit + 1 }, w)).1 with
        | .ok x => .ok x
        | .error e => .error (match e, h with | .integrity, some e' => e' | e, _ => reraised e)),
        { (body ({ t with noCommit := t.noCommit + 1 }, w)).2.1 with noCommit := t.noCommit },
        (body ({ t with noCommit := t.noCommit + 1 }, w)).2.2) := by
  obtain ⟨r, s, h1, h2⟩ := method_run (env := env) h body t w
  rw [h2]
  rw [bind_run, begin_nested ht] at h1
  simp only at h1
  rw [bind_run] at h1
  rcases hb : body ({ t with noCommit := t.noCommit + 1 }, w) with ⟨rb, tb, wb⟩
  rw [hb] at h1 hk
  simp only at h1 hk
  have hpos : 0 < tb.noCommit := by omega
  cases rb with
  | ok x =>
    simp only [bind_run, commit_nested hpos, pure_run] at h1
    injection h1 with h3 h4
    subst h3; subst h4
    simp [close, hk]
  | error e =>
    simp only at h1
    injection h1 with h3 h4
    subst h3; subst h4
    simp only [rollback_nested hpos]
    simp [close, hk]

theorem loose_method {d : DB} {h : Option Exn} {body : M α} (hb : Loose d body) : Loose d (method env h body) := by
  intro t w h1 h2 h3
  have hb' := hb { t with noCommit := t.noCommit + 1 } w h1 h2 h3
  rw [method_nested h body h1 hb'.2.1]
  exact ⟨hb'.1, rfl, hb'.2.2.1, hb'.2.2.2⟩

/-! ## Methods with a transaction of their own -/

/-- A method with a transaction of its own, on a database that can roll back: if its first part changes nothing and its body
commits nothing, it is all or nothing. -/
theorem own_method {d : DB} {h : Option Exn} {first : M α} {rest : α → M β} (hf : Steady d first) (hr : ∀ x, Loose d (rest x))
    (henv : env.rollbacks = true) {t : Trans} {w : World} (hc : w.committed = d) (hh : ∀ c ∈ w.history, c = d)
    (hcur : w.current = d) :
    ((own (method env h (first >>= rest)) (t, w)).2.1 = t) ∧
    (own (method env h (first >>= rest)) (t, w)).2.2.current = (own (method env h (first >>= rest)) (t, w)).2.2.committed ∧
    (∀ e, (own (method env h (first >>= rest)) (t, w)).1 = .error e →
      (own (method env h (first >>= rest)) (t, w)).2.2.committed = d) ∧
    ∀ c ∈ (own (method env h (first >>= rest)) (t, w)).2.2.history, c = d ∨
      ((∃ x, (own (method env h (first >>= rest)) (t, w)).1 = .ok x) ∧
        c = (own (method env h (first >>= rest)) (t, w)).2.2.committed) := by
  obtain ⟨r, s, h1, h2⟩ := method_run (env := env) h (first >>= rest) Trans.new w
  have hbeg : begin_ (Trans.new, w) = (.ok (), { Trans.new with cursor := true }, w) := rfl
  rw [bind_run, hbeg] at h1
  simp only at h1
  rw [bind_run] at h1
  have hbody : (((first >>= rest) ({ Trans.new with cursor := true }, w)).2.1.noCommit = 0) ∧
      ((first >>= rest) ({ Trans.new with cursor := true }, w)).2.2.committed = d ∧
      (∀ c ∈ ((first >>= rest) ({ Trans.new with cursor := true }, w)).2.2.history, c = d) := by
    have hs := hf { Trans.new with cursor := true } w rfl hc hh hcur
    rw [bind_run]
    rcases hrun : first ({ Trans.new with cursor := true }, w) with ⟨rf, tf, wf⟩
    rw [hrun] at hs
    cases rf with
    | error e => exact ⟨hs.2.1, hs.2.2.1, hs.2.2.2.1⟩
    | ok x =>
      have hl := hr x tf wf hs.1 hs.2.2.1 hs.2.2.2.1
      exact ⟨hl.2.1.trans hs.2.1, hl.2.2.1, hl.2.2.2⟩
  rcases hb : (first >>= rest) ({ Trans.new with cursor := true }, w) with ⟨rb, tb, wb⟩
  rw [hb] at h1 hbody
  simp only at h1 hbody
  obtain ⟨k1, k2, k3⟩ := hbody
  have hroll : ∀ w' : World, rollback env (tb, w') = (.ok (), tb, { w' with current := w'.committed }) := by
    intro w'
    simp [rollback, k1, henv]
  simp only [own, h2]
  cases rb with
  | error e =>
    simp only at h1
    injection h1 with h3 h4
    subst h3; subst h4
    simp only [hroll]
    exact ⟨trivial, trivial, fun _ _ => k2, fun c hc => .inl (k3 c hc)⟩
  | ok x =>
    simp only [bind_run] at h1
    have hcom : commit env (tb, wb) =
        match env.fault wb.clock with
        | some b => (.error (failure b), tb, { wb with clock := wb.clock + 1 })
        | none => (.ok (), tb, { wb with clock := wb.clock + 1, committed := wb.current, history := wb.history ++ [wb.current] }) := by
      simp only [commit, k1]
      rfl
    cases hfault : env.fault wb.clock with
    | some b =>
      simp only [hfault] at hcom
      simp only [hcom] at h1
      injection h1 with h3 h4
      subst h3; subst h4
      simp only [hroll]
      exact ⟨trivial, trivial, fun _ _ => k2, fun c hc => .inl (k3 c hc)⟩
    | none =>
      simp only [hfault] at hcom
      simp only [hcom, pure_run] at h1
      injection h1 with h3 h4
      subst h3; subst h4
      refine ⟨trivial, rfl, (fun e he => by cases he), ?_⟩
      intro c hc
      rcases List.mem_append.mp hc with hc | hc
      · exact .inl (k3 c hc)
      · exact .inr ⟨⟨x, rfl⟩, by simpa using hc⟩

/-- A query in a transaction of its own changes nothing. -/
theorem own_query {d : DB} {h : Option Exn} (f : DB → α) (g : α → M β) (hg : ∀ x, g x = raise .key ∨ ∃ y, g x = pure y)
    (henv : env.rollbacks = true) {t : Trans} {w : World} (h2 : w.committed = d) (h3 : ∀ c ∈ w.history, c = d) (h4 : w.current = d) :
    (own (method env h (query env f >>= g)) (t, w)).2.1 = t ∧
    (own (method env h (query env f >>= g)) (t, w)).2.2.committed = d ∧
    (∀ c ∈ (own (method env h (query env f >>= g)) (t, w)).2.2.history, c = d) ∧
    (own (method env h (query env f >>= g)) (t, w)).2.2.current = d := by
  have hg' : ∀ x, Loose d (g x) := by
    intro x
    rcases hg x with hx | ⟨y, hx⟩ <;> rw [hx]
    · exact loose_raise _
    · exact loose_pure _
  have hq : Steady d (query env f) := by
    intro t w h1 h2 h3 h4
    simp only [query]
    split
    · exact ⟨h1, rfl, h2, h3, h4⟩
    · exact ⟨h1, rfl, h2, h3, h4⟩
  have hbody : Steady d (query env f >>= g) := by
    refine steady_bind hq ?_
    intro x
    rcases hg x with hx | ⟨y, hx⟩ <;> rw [hx]
    · exact steady_raise _
    · exact steady_pure _
  obtain ⟨k1, k2, k3, k4⟩ := own_method (h := h) (rest := fun x => pure x) hbody (fun x => loose_pure x) henv (t := t) h2 h3 h4
  have hid : (query env f >>= g) >>= (fun x => pure x) = (query env f >>= g) := by
    funext s
    rw [bind_run]
    split <;> (next he => rw [he]; try rfl)
  rw [hid] at k1 k2 k3 k4
  -- what is committed is what was seen, which is `d`
  have hcd : (own (method env h (query env f >>= g)) (t, w)).2.2.committed = d := by
    rcases hr : (own (method env h (query env f >>= g)) (t, w)).1 with e | x
    · exact k3 e hr
    · obtain ⟨r, s, q1, q2⟩ := method_run (env := env) h (query env f >>= g) Trans.new w
      have hbeg : begin_ (Trans.new, w) = (.ok (), { Trans.new with cursor := true }, w) := rfl
      rw [bind_run, hbeg] at q1
      simp only at q1
      rw [bind_run] at q1
      have hs := hbody { Trans.new with cursor := true } w rfl h2 h3 h4
      rcases hb : (query env f >>= g) ({ Trans.new with cursor := true }, w) with ⟨rb, tb, wb⟩
      rw [hb] at q1 hs
      simp only at q1 hs
      obtain ⟨-, s2, s3, s4, s5⟩ := hs
      simp only [own, q2] at hr ⊢
      have s2' : tb.noCommit = 0 := s2
      have hroll : ∀ w' : World, rollback env (tb, w') = (.ok (), tb, { w' with current := w'.committed }) := by
        intro w'
        simp [rollback, s2', henv]
      cases rb with
      | error e =>
        simp only at q1
        injection q1 with q3 q4
        subst q3; subst q4
        simp only [hroll]
        exact s3
      | ok y =>
        simp only [bind_run] at q1
        have hcom : commit env (tb, wb) =
            match env.fault wb.clock with
            | some b => (.error (failure b), tb, { wb with clock := wb.clock + 1 })
            | none => (.ok (), tb, { wb with clock := wb.clock + 1, committed := wb.current, history := wb.history ++ [wb.current] }) := by
          simp only [commit, s2']
          rfl
        cases hfault : env.fault wb.clock with
        | some b =>
          simp only [hfault] at hcom
          simp only [hcom] at q1
          injection q1 with q3 q4
          subst q3; subst q4
          simp only [hroll]
          exact s3
        | none =>
          simp only [hfault] at hcom
          simp only [hcom, pure_run] at q1
          injection q1 with q3 q4
          subst q3; subst q4
          exact s5
  refine ⟨k1, hcd, ?_, k2.trans hcd⟩
  intro c hc
  rcases k4 c hc with hc | ⟨_, hc⟩
  · exact hc
  · exact hc.trans hcd

theorem getitem_quiet {d : DB} (s : SetId) (k : Key) (henv : env.rollbacks = true) {t : Trans} {w : World} (h2 : w.committed = d)
    (h3 : ∀ c ∈ w.history, c = d) (h4 : w.current = d) :
    (getitem env s k (t, w)).2.1 = t ∧ (getitem env s k (t, w)).2.2.committed = d ∧
    (∀ c ∈ (getitem env s k (t, w)).2.2.history, c = d) ∧ (getitem env s k (t, w)).2.2.current = d := by
  unfold getitem
  refine own_query _ _ ?_ henv h2 h3 h4
  intro x
  cases x
  · exact .inl rfl
  · exact .inr ⟨(), rfl⟩

theorem steady_getitem {d : DB} (s : SetId) (k : Key) (henv : env.rollbacks = true) : Steady d (getitem env s k) := by
  intro t w h1 h2 h3 h4
  obtain ⟨k1, k2, k3, k4⟩ := getitem_quiet s k henv (t := t) h2 h3 h4
  exact ⟨by rw [k1]; exact h1, by rw [k1], k2, k3, k4⟩

/-! ## Links -/

theorem loose_updateLink {d : DB} (k : Key) (e : End) (target : Option Key) (noReplace : Bool) :
    Loose d (updateLink env S k e target noReplace) := by
  unfold updateLink
  refine loose_ite (fun _ => loose_raise _) fun _ => loose_method (loose_bind (loose_execute _) fun n => ?_)
  exact loose_ite (fun _ => loose_raise _) fun _ => loose_pure _

theorem loose_insertLink {d : DB} (e : End) (a b : Key) : Loose d (insertLink env S e a b) := by
  unfold insertLink
  split
  · exact loose_updateLink _ _ _ _
  · exact loose_updateLink _ _ _ _
  · exact loose_method (loose_bind (loose_execute _) fun _ => loose_pure _)

theorem loose_clearLinks {d : DB} (e : End) (a : Key) : Loose d (clearLinks env S e a) := by
  unfold clearLinks
  split
  · exact loose_raise _
  · exact loose_method (loose_bind (loose_execute _) fun _ => loose_pure _)
  · exact loose_method (loose_bind (loose_execute _) fun _ => loose_pure _)

theorem loose_replaceLink {d : DB} (e : End) (a b : Key) : Loose d (replaceLink env S e a b) := by
  unfold replaceLink
  split
  · exact loose_updateLink _ _ _ _
  · exact loose_ite (fun _ => loose_raise _) fun _ =>
      loose_method (loose_bind (loose_clearLinks _ _) fun _ => loose_insertLink _ _ _)
  · exact loose_ite (fun _ => loose_method (loose_bind (loose_clearLinks _ _) fun _ => loose_insertLink _ _ _)) fun _ =>
      loose_raise _

theorem loose_deleteLink {d : DB} (e : End) (a b : Key) : Loose d (deleteLink env S e a b) := by
  unfold deleteLink
  split
  · refine loose_ite (fun _ => loose_raise _) fun _ => loose_method (loose_bind (loose_execute _) fun _ => ?_)
    exact loose_ite (fun _ => loose_raise _) fun _ => loose_pure _
  · exact loose_pure _
  · refine loose_method (loose_bind (loose_execute _) fun _ => ?_)
    exact loose_ite (fun _ => loose_raise _) fun _ => loose_pure _

theorem loose_relink {d : DB} (e : End) (a b : Key) : Loose d (relink env S e a b) := by
  unfold relink
  exact loose_ite (fun _ => loose_insertLink _ _ _) fun _ => loose_replaceLink _ _ _

/-! ## Insertion -/

mutual

theorem loose_insertIn {d : DB} : ∀ (b : Ent) (from_ : Option End) (fks : List (End × Key)), keylessEnt b = true →
    Loose d (insertIn env S b from_ fks true)
  | .mk set key data oid old navs, from_, fks, hk => by
    intro t w h1 h2 h3
    by_cases he : (Ent.mk set key data oid old navs).existing w = true
    · simp only [insertIn, he, if_true]
      exact ⟨h1, trivial, h2, h3⟩
    · have hrun : insertIn env S (.mk set key data oid old navs) from_ fks true (t, w) =
          method env (some .constraint) (before env S from_ fks true navs >>= fun fks => do
            let _ ← execute env (insertRow set ⟨key, data, fks⟩)
            mark oid
            after env S key navs) (t, w) := by
        simp only [insertIn, he]
        rfl
      rw [hrun]
      refine loose_method ?_ t w h1 h2 h3
      refine loose_bind (loose_before navs from_ fks (by simpa [keylessEnt] using hk)) fun fks' => ?_
      refine loose_bind (loose_execute _) fun _ => loose_bind (loose_mark _) fun _ => ?_
      exact loose_after navs key (by simpa [keylessEnt] using hk)

theorem loose_before {d : DB} : ∀ (navs : Navs) (from_ : Option End) (fks : List (End × Key)), keylessNavs navs = true →
    Loose d (before env S from_ fks true navs)
  | .nil, _, _, _ => by rw [before]; exact loose_pure _
  | .cons e bs rest, from_, fks, hk => by
    have hk' : keylessBinds bs = true ∧ keylessNavs rest = true := by simpa [keylessNavs] using hk
    rw [before.eq_def]
    refine loose_ite (fun _ => loose_before rest _ _ hk'.2) fun _ => ?_
    refine loose_ite (fun _ => loose_raise _) fun _ => ?_
    match bs with
    | .nil => exact loose_ite (fun _ => loose_raise _) fun _ => loose_before rest _ _ hk'.2
    | .key k more => simp [keylessBinds] at hk'
    | .ent b more =>
      refine loose_ite (fun _ => ?_) fun _ => loose_before rest _ _ hk'.2
      have hb : keylessEnt b = true := by
        have := hk'.1
        simp only [keylessBinds, Bool.and_eq_true] at this
        exact this.1
      match more with
      | .nil =>
        refine loose_bind (loose_isOld _) fun _ => loose_ite (fun _ => ?_) fun _ => loose_bind (loose_insertIn b _ _ hb) fun _ => ?_
        · exact loose_ite (fun _ => loose_before rest _ _ hk'.2) fun _ => loose_raise _
        · exact loose_ite (fun _ => loose_before rest _ _ hk'.2) fun _ => loose_raise _
      | .key _ _ => exact loose_raise _
      | .ent _ _ => exact loose_raise _

theorem loose_after {d : DB} : ∀ (navs : Navs) (key : Key), keylessNavs navs = true → Loose d (after env S key navs)
  | .nil, _, _ => by rw [after]; exact loose_pure _
  | .cons e bs rest, key, hk => by
    have hk' : keylessBinds bs = true ∧ keylessNavs rest = true := by simpa [keylessNavs] using hk
    rw [after]
    exact loose_ite (fun _ => loose_after rest key hk'.2) fun _ =>
      loose_bind (loose_afterBinds bs key e hk'.1) fun _ => loose_after rest key hk'.2

theorem loose_afterBinds {d : DB} : ∀ (bs : Binds) (key : Key) (e : End), keylessBinds bs = true →
    Loose d (afterBinds env S key e bs)
  | .nil, _, _, _ => by rw [afterBinds]; exact loose_pure _
  | .key k more, _, _, hk => by simp [keylessBinds] at hk
  | .ent b more, key, e, hk => by
    have hk' : keylessEnt b = true ∧ keylessBinds more = true := by simpa [keylessBinds] using hk
    rw [afterBinds]
    refine loose_bind (loose_isOld _) fun _ => ?_
    dsimp only
    have hrest := loose_afterBinds (d := d) more key e hk'.2
    refine loose_ite (fun _ => loose_bind (loose_insertLink _ _ _) fun _ => hrest) fun _ => ?_
    refine loose_ite (fun _ => loose_bind (loose_insertIn b _ _ hk'.1) fun _ => hrest) fun _ => ?_
    exact loose_bind (loose_insertIn b _ _ hk'.1) fun _ => loose_bind (loose_insertLink _ _ _) fun _ => hrest

end

/-- The first step, if only existing entities are bound. -/
theorem steady_before {d : DB} (henv : env.rollbacks = true) (from_ : Option End) : ∀ (navs : Navs) (fks : List (End × Key)),
    tidy S navs = true → Steady d (before env S from_ fks true navs)
  | .nil, _, _ => by rw [before]; exact steady_pure _
  | .cons e bs rest, fks, hk => by
    have hk' : (if S.place e = .own ∧ S.nav e = true then onlyOld bs else keylessBinds bs) = true ∧ tidy S rest = true := by
      simpa [tidy] using hk
    rw [before.eq_def]
    refine steady_ite (fun _ => steady_before henv from_ rest _ hk'.2) fun _ => ?_
    refine steady_ite (fun _ => steady_raise _) fun _ => ?_
    match bs with
    | .nil => exact steady_ite (fun _ => steady_raise _) fun _ => steady_before henv from_ rest _ hk'.2
    | .key k more =>
      refine steady_ite (fun _ => ?_) fun _ => steady_before henv from_ rest _ hk'.2
      match more with
      | .nil =>
        refine steady_bind (steady_getitem _ _ henv) fun _ => ?_
        exact steady_ite (fun _ => steady_before henv from_ rest _ hk'.2) fun _ => steady_raise _
      | .key _ _ => exact steady_raise _
      | .ent _ _ => exact steady_raise _
    | .ent b more =>
      refine steady_ite (fun hown => ?_) fun _ => steady_before henv from_ rest _ hk'.2
      match more with
      | .nil =>
        have hold : ∀ w, b.existing w = true := by
          intro w
          have := hk'.1
          rw [if_pos hown] at this
          cases b with
          | mk set key data oid old navs =>
            simp only [onlyOld, Bool.and_true] at this
            simp [Ent.existing, this]
        intro t w h1 h2 h3 h4
        simp only [bind_run, isOld, hold w, if_true]
        exact steady_before henv from_ rest _ hk'.2 t w h1 h2 h3 h4
      | .key _ _ => exact steady_raise _
      | .ent _ _ => exact steady_raise _

/-- The third step passes over what the first one has done. -/
theorem loose_after_tidy {d : DB} : ∀ (navs : Navs) (key : Key), tidy S navs = true → Loose d (after env S key navs)
  | .nil, _, _ => by rw [after]; exact loose_pure _
  | .cons e bs rest, key, hk => by
    have hk' : (if S.place e = .own ∧ S.nav e = true then onlyOld bs else keylessBinds bs) = true ∧ tidy S rest = true := by
      simpa [tidy] using hk
    rw [after]
    refine loose_ite (fun _ => loose_after_tidy rest key hk'.2) fun h => loose_bind ?_ fun _ => loose_after_tidy rest key hk'.2
    have : ¬ (S.place e = .own ∧ S.nav e = true) := fun h' => h (.inl h'.1)
    rw [if_neg this] at hk'
    exact loose_afterBinds bs key e hk'.1

theorem atomic_of_own {m : M Unit} {d : DB} {clock : Nat} {marked : List Nat}
    (h : (m (Trans.new, quiet d clock marked)).2.2.current = (m (Trans.new, quiet d clock marked)).2.2.committed ∧
      (∀ e, (m (Trans.new, quiet d clock marked)).1 = .error e → (m (Trans.new, quiet d clock marked)).2.2.committed = d) ∧
      ∀ c ∈ (m (Trans.new, quiet d clock marked)).2.2.history, c = d ∨
        ((∃ x, (m (Trans.new, quiet d clock marked)).1 = .ok x) ∧ c = (m (Trans.new, quiet d clock marked)).2.2.committed)) :
    Atomic d (call m (quiet d clock marked)).1 (call m (quiet d clock marked)).2 :=
  ⟨h.1, h.2.1, fun c hc => (h.2.2 c hc).imp id fun ⟨⟨_, hx⟩, hc⟩ => ⟨hx, hc⟩⟩

/-- **An insertion is all or nothing**, with all the entities that are inserted with it and all their links, for every database,
whichever statement fails and wherever the program stops: if entities are bound as objects at any depth, or by their keys where the
entity itself has the foreign key. -/
theorem insert_atomic (S : Schema) (set key data oid : Nat) (old : Bool) (navs : Navs)
    (h : keylessNavs navs = true ∨ tidy S navs = true) :
    AllOrNothing fun env => insertEntity env S (.mk set key data oid old navs) := by
  intro env d clock marked henv
  apply atomic_of_own
  simp only [insertEntity]
  by_cases he : (Ent.mk set key data oid old navs).existing (quiet d clock marked) = true
  · have : own (insertIn env S (.mk set key data oid old navs) none [] true) (Trans.new, quiet d clock marked) =
        (.error .entityExists, Trans.new, quiet d clock marked) := by
      simp only [own, insertIn, he, if_true]
    rw [this]
    exact ⟨rfl, fun _ _ => rfl, fun c hc => by cases hc⟩
  · have hrun : own (insertIn env S (.mk set key data oid old navs) none [] true) (Trans.new, quiet d clock marked) =
        own (method env (some .constraint) (before env S none [] true navs >>= fun fks => do
          let _ ← execute env (insertRow set ⟨key, data, fks⟩)
          mark oid
          after env S key navs)) (Trans.new, quiet d clock marked) := by
      simp only [own, insertIn, he]
      rfl
    rw [hrun]
    rcases h with h | h
    · have hp : Steady d (pure () : M Unit) := steady_pure ()
      have := own_method (env := env) (h := some .constraint) hp (rest := fun _ => before env S none [] true navs >>= fun fks => do
          let _ ← execute env (insertRow set ⟨key, data, fks⟩)
          mark oid
          after env S key navs)
        (fun _ => loose_bind (loose_before navs none [] h) fun fks =>
          loose_bind (loose_execute _) fun _ => loose_bind (loose_mark _) fun _ => loose_after navs key h)
        henv (t := Trans.new) (w := quiet d clock marked) rfl (fun c hc => by cases hc) rfl
      exact this.2
    · exact (own_method (env := env) (h := some .constraint) (steady_before henv none navs [] h)
        (rest := fun fks => do
          let _ ← execute env (insertRow set ⟨key, data, fks⟩)
          mark oid
          after env S key navs)
        (fun fks => loose_bind (loose_execute _) fun _ => loose_bind (loose_mark _) fun _ => loose_after_tidy navs key h)
        henv (t := Trans.new) (w := quiet d clock marked) rfl (fun c hc => by cases hc) rfl).2

/-! ## Updates -/

theorem loose_updateBinds {d : DB} (key : Key) (e : End) : ∀ bs : Binds,
    (match S.place e with | .own => onlyOld bs | .other => keylessBinds bs | .aux => onlyRead bs) = true → S.place e ≠ .own →
    Loose d (updateBinds env S key e bs)
  | .nil, _, _ => by rw [updateBinds]; exact loose_pure _
  | .key k more, hk, hp => by
    exfalso
    cases hpl : S.place e <;> simp [hpl, keylessBinds, onlyRead] at hk hp
  | .ent b more, hk, hp => by
    have hmore : (match S.place e with | .own => onlyOld more | .other => keylessBinds more | .aux => onlyRead more) = true := by
      cases b
      cases hpl : S.place e <;> simp [hpl, keylessBinds, onlyRead, onlyOld] at hk hp ⊢ <;> exact hk.2
    intro t w h1 h2 h3
    rw [updateBinds]
    rw [bind_run]
    simp only [isOld]
    have hrest := loose_updateBinds (d := d) key e more hmore hp
    by_cases he : b.existing w = true
    · simp only [he, if_true]
      exact loose_bind (loose_relink _ _ _) (fun _ => hrest) t w h1 h2 h3
    · have he' : b.existing w = false := by simpa using he
      simp only [he']
      cases hpl : S.place e with
      | own => exact absurd hpl hp
      | other =>
        rw [hpl] at hk
        simp only [keylessBinds, Bool.and_eq_true] at hk
        simp only [if_true, Bool.false_eq_true, if_false]
        refine loose_ite (fun _ => ?_) (fun _ => ?_) t w h1 h2 h3
        · exact loose_bind (loose_insertIn b _ _ hk.1) fun _ => hrest
        · exact loose_bind (loose_clearLinks _ _) fun _ => loose_bind (loose_insertIn b _ _ hk.1) fun _ => hrest
      | aux =>
        exfalso
        rw [hpl] at hk
        cases b with
        | mk set key data oid old navs =>
          simp only [onlyRead, Bool.and_eq_true] at hk
          exact he (by simp [Ent.existing, hk.1])

theorem loose_afterUpdate {d : DB} (key : Key) : ∀ navs : Navs, tidyUpdate S navs = true → Loose d (afterUpdate env S key navs)
  | .nil, _ => by rw [afterUpdate]; exact loose_pure _
  | .cons e bs rest, hk => by
    rw [tidyUpdate, Bool.and_eq_true] at hk
    rw [afterUpdate]
    refine loose_ite (fun _ => loose_afterUpdate key rest hk.2) fun h => loose_bind ?_ fun _ => loose_afterUpdate key rest hk.2
    exact loose_updateBinds key e bs hk.1 fun h' => h (.inl h')

theorem steady_beforeUpdate {d : DB} (henv : env.rollbacks = true) : ∀ (navs : Navs) (fks : List (End × Key)),
    tidyUpdate S navs = true → Steady d (beforeUpdate env S fks navs)
  | .nil, _, _ => by rw [beforeUpdate]; exact steady_pure _
  | .cons e bs rest, fks, hk => by
    rw [tidyUpdate, Bool.and_eq_true] at hk
    rw [beforeUpdate.eq_def]
    refine steady_ite (fun hown => ?_) fun _ => steady_beforeUpdate henv rest _ hk.2
    have hbs := hk.1
    rw [hown.1] at hbs
    simp only at hbs
    match bs with
    | .nil => exact steady_beforeUpdate henv rest _ hk.2
    | .key k .nil => exact steady_bind (steady_getitem _ _ henv) fun _ => steady_beforeUpdate henv rest _ hk.2
    | .key k (.key _ _) => exact steady_raise _
    | .key k (.ent _ _) => exact steady_raise _
    | .ent b .nil =>
      have hold : ∀ w, b.existing w = true := by
        intro w
        cases b with
        | mk set key data oid old navs =>
          simp only [onlyOld, Bool.and_true] at hbs
          simp [Ent.existing, hbs]
      intro t w h1 h2 h3 h4
      simp only [bind_run, isOld, hold w, if_true]
      exact steady_beforeUpdate henv rest _ hk.2 t w h1 h2 h3 h4
    | .ent b (.key _ _) => exact steady_raise _
    | .ent b (.ent _ _) => exact steady_raise _

/-- **An update is all or nothing**, with its links, for every database, whichever statement fails and wherever the program stops:
if existing entities are bound by their keys only where the entity itself has the foreign key, and new entities only where they
have it. -/
theorem update_atomic (S : Schema) (set key data oid : Nat) (old : Bool) (navs : Navs) (h : tidyUpdate S navs = true) :
    AllOrNothing fun env => updateEntity env S (.mk set key data oid old navs) := by
  intro env d clock marked henv
  apply atomic_of_own
  by_cases he : (Ent.mk set key data oid old navs).existing (quiet d clock marked) = true
  · have hrun : updateEntity env S (.mk set key data oid old navs) (Trans.new, quiet d clock marked) =
        own (method env (some .constraint) (beforeUpdate env S [] navs >>= fun fks => do
          let n ← execute env (updateRow set key data fks)
          if n = 0 then raise .key else pure ()
          afterUpdate env S key navs)) (Trans.new, quiet d clock marked) := by
      simp only [updateEntity, he, not_true_eq_false, if_false]
    simp only [hrun]
    exact (own_method (env := env) (h := some .constraint) (steady_beforeUpdate henv navs [] h)
      (rest := fun fks => do
        let n ← execute env (updateRow set key data fks)
        if n = 0 then raise .key else pure ()
        afterUpdate env S key navs)
      (fun fks => loose_bind (loose_execute _) fun _ =>
        loose_ite (fun _ => loose_bind (loose_raise _) fun _ => loose_afterUpdate key navs h) fun _ => loose_afterUpdate key navs h)
      henv (t := Trans.new) (w := quiet d clock marked) rfl (fun c hc => by cases hc) rfl).2
  · have hrun : updateEntity env S (.mk set key data oid old navs) (Trans.new, quiet d clock marked) =
        (.error .nonExistent, Trans.new, quiet d clock marked) := by
      simp only [updateEntity, he]
      rfl
    simp only [hrun]
    exact ⟨rfl, fun _ _ => rfl, fun c hc => by cases hc⟩

/-! ## Deletion -/

theorem loose_each {d : DB} {γ : Type} {f : γ → M Unit} : ∀ l : List γ, (∀ x ∈ l, Loose d (f x)) → Loose d (each f l)
  | [], _ => by rw [each]; exact loose_pure _
  | x :: rest, h => by
    rw [each]
    exact loose_bind (h x (by simp)) fun _ => loose_each rest fun y hy => h y (by simp [hy])

/-- **A deletion is all or nothing**, with the links it removes, if no other entities have to be deleted with it: no entity of
another set depends on one of this set. -/
theorem delete_atomic (S : Schema) (n : Nat) (set : SetId) (key : Key)
    (h : ∀ e ∈ S.ends set, S.mult e = .one → S.place e = .own ∨ S.nav e = false) :
    AllOrNothing fun env => deleteEntity env S (n + 1) set key := by
  intro env d clock marked henv
  apply atomic_of_own
  simp only [deleteEntity]
  rw [bind_run]
  obtain ⟨k1, k2, k3, k4⟩ := getitem_quiet (env := env) set key henv (t := Trans.new) (w := quiet d clock marked) (d := d) rfl
    (fun c hc => by cases hc) rfl
  rcases hg : getitem env set key (Trans.new, quiet d clock marked) with ⟨r, t, w⟩
  rw [hg] at k1 k2 k3 k4
  cases r with
  | error e => exact ⟨k4.trans k2.symm, fun _ _ => k2, fun c hc => .inl (k3 c hc)⟩
  | ok u =>
    have hp : Steady d (pure () : M Unit) := steady_pure ()
    have := own_method (env := env) (h := none) hp (rest := fun _ => (do
        each (fun e =>
          if some e = none ∨ S.place e = .own then pure ()
          else if S.mult e = .one then
            if S.nav e then do
              let targets ← values env S e key
              each (fun k => do
                deleteLink env S e key k
                deleteIn env S n (S.set (other e)) k (some (other e))) targets
            else raise .navigation
          else if S.nav e then clearLinks env S e key
          else if S.place e = .aux then do
            let _ ← execute env (dropLinks e key)
            pure ()
          else clearLinks env S e key) (S.ends set)
        let count ← execute env (deleteRow set key)
        if count = 0 then raise .key else if count > 1 then raise .name else pure () : M Unit))
      (fun _ => by
        refine loose_bind (loose_each _ fun e he => ?_) fun _ => loose_bind (loose_execute _) fun _ => ?_
        · refine loose_ite (fun _ => loose_pure _) fun hn => loose_ite (fun hone => ?_) fun _ => ?_
          · have hnav : ¬ S.nav e = true := by
              rcases h e he hone with h' | h'
              · exact absurd (Or.inr h') hn
              · simp [h']
            exact loose_ite (fun h' => absurd h' hnav) fun _ => loose_raise _
          · refine loose_ite (fun _ => loose_clearLinks _ _) fun _ => ?_
            refine loose_ite (fun _ => loose_bind (loose_execute _) fun _ => loose_pure _) fun _ => loose_clearLinks _ _
        · exact loose_ite (fun _ => loose_raise _) fun _ => loose_ite (fun _ => loose_raise _) fun _ => loose_pure _)
      henv (t := t) (w := w) k2 k3 k4
    have hrun : own (deleteIn env S (n + 1) set key none) (t, w) = _ := rfl
    exact this.2

/-! ## Links -/

/-- A method on a link that is called on its own. -/
theorem link_atomic {m : Env → M Unit} (body : Env → M Unit) (h : Option Exn)
    (hm : ∀ env, m env = method env h (body env) ∨ (∃ e, m env = raise e) ∨ m env = pure ())
    (hb : ∀ d env, Loose d (body env)) : AllOrNothing fun env => own (m env) := by
  intro env d clock marked henv
  apply atomic_of_own
  dsimp only
  rcases hm env with hm | ⟨e, hm⟩ | hm
  · rw [hm]
    have hp : Steady d (pure () : M Unit) := steady_pure ()
    exact (own_method (env := env) (h := h) hp (rest := fun _ => body env) (fun _ => hb d env) henv (t := Trans.new)
      (w := quiet d clock marked) rfl (fun c hc => by cases hc) rfl).2
  · rw [hm]
    exact ⟨rfl, fun _ _ => rfl, fun c hc => by cases hc⟩
  · rw [hm]
    exact ⟨rfl, fun _ _ => rfl, fun c hc => by cases hc⟩

theorem updateLink_cases (k : Key) (e : End) (target : Option Key) (b : Bool) :
    (∀ env, ∃ x, updateLink env S k e target b = raise x) ∨ ∀ env, updateLink env S k e target b = method env (some .key) (do
      let n ← execute env (setFk (S.set e) k e target b)
      if n = 0 then raise (if b = true ∧ target.isSome = true then .navigation else .key) else pure ()) := by
  by_cases h : ¬ S.nullable e = true ∧ target = none
  · exact .inl fun env => ⟨_, by rw [updateLink, if_pos h]⟩
  · exact .inr fun env => by rw [updateLink, if_neg h]

theorem loose_setFk {d : DB} (k : Key) (e : End) (target : Option Key) (b : Bool) : Loose d (do
    let n ← execute env (setFk (S.set e) k e target b)
    if n = 0 then raise (if b = true ∧ target.isSome = true then .navigation else .key) else pure () : M Unit) :=
  loose_bind (loose_execute _) fun _ => loose_ite (fun _ => loose_raise _) fun _ => loose_pure _

theorem updateLink_atomic (k : Key) (e : End) (target : Option Key) (b : Bool) :
    AllOrNothing fun env => own (updateLink env S k e target b) := by
  rcases updateLink_cases (S := S) k e target b with h | h
  · exact link_atomic (fun _ => pure ()) none (fun env => .inr (.inl (h env))) fun d _ => loose_pure _
  · exact link_atomic _ (some .key) (fun env => .inl (h env)) fun d env => loose_setFk k e target b

/-- **A link is added** in full or not at all. -/
theorem insertLink_atomic (S : Schema) (e : End) (a b : Key) : AllOrNothing fun env => own (insertLink env S e a b) := by
  cases hp : S.place e with
  | own =>
    have : (fun env => own (insertLink env S e a b)) = fun env => own (updateLink env S a e (some b) true) := by
      funext env; simp only [insertLink, hp]
    rw [this]
    exact updateLink_atomic _ _ _ _
  | other =>
    have : (fun env => own (insertLink env S e a b)) = fun env => own (updateLink env S b (other e) (some a) true) := by
      funext env; simp only [insertLink, hp]
    rw [this]
    exact updateLink_atomic _ _ _ _
  | aux =>
    exact link_atomic (fun env => do
      let _ ← execute env (addLink e a b)
      pure ()) (some .navigation) (fun env => .inl (by simp only [insertLink, hp])) fun d env =>
      loose_bind (loose_execute _) fun _ => loose_pure _

/-- **A link is replaced** in full or not at all: the old links stay if the new one cannot be made. -/
theorem replaceLink_atomic (S : Schema) (e : End) (a b : Key) : AllOrNothing fun env => own (replaceLink env S e a b) := by
  have hboth : ∀ (d : DB) (env : Env), Loose d (do
      clearLinks env S e a
      insertLink env S e a b) := fun d env => loose_bind (loose_clearLinks _ _) fun _ => loose_insertLink _ _ _
  cases hp : S.place e with
  | own =>
    have : (fun env => own (replaceLink env S e a b)) = fun env => own (updateLink env S a e (some b) false) := by
      funext env; simp only [replaceLink, hp]
    rw [this]
    exact updateLink_atomic _ _ _ _
  | other =>
    refine link_atomic (fun env => do
      clearLinks env S e a
      insertLink env S e a b) (some .navigation) (fun env => ?_) hboth
    simp only [replaceLink, hp]
    split
    · exact .inr (.inl ⟨_, rfl⟩)
    · exact .inl rfl
  | aux =>
    refine link_atomic (fun env => do
      clearLinks env S e a
      insertLink env S e a b) (some .navigation) (fun env => ?_) hboth
    simp only [replaceLink, hp]
    split
    · exact .inl rfl
    · exact .inr (.inl ⟨_, rfl⟩)

/-- **A link is removed** in full or not at all. -/
theorem deleteLink_atomic (S : Schema) (e : End) (a b : Key) : AllOrNothing fun env => own (deleteLink env S e a b) := by
  cases hp : S.place e with
  | own =>
    refine link_atomic (fun env => do
      let n ← execute env (unsetFk (S.set e) a e b)
      if n = 0 then raise .type else pure ()) none (fun env => ?_) fun d env =>
      loose_bind (loose_execute _) fun _ => loose_ite (fun _ => loose_raise _) fun _ => loose_pure _
    simp only [deleteLink, hp]
    split
    · exact .inr (.inl ⟨_, rfl⟩)
    · exact .inl rfl
  | other => exact link_atomic (fun _ => pure ()) none (fun env => .inr (.inr (by simp only [deleteLink, hp]))) fun d _ => loose_pure _
  | aux =>
    exact link_atomic (fun env => do
      let n ← execute env (dropLink e a b)
      if n = 0 then raise .key else pure ()) none (fun env => .inl (by simp only [deleteLink, hp])) fun d env =>
      loose_bind (loose_execute _) fun _ => loose_ite (fun _ => loose_raise _) fun _ => loose_pure _

/-- **All links of an entity are removed** in full or not at all. -/
theorem clearLinks_atomic (S : Schema) (e : End) (a : Key) : AllOrNothing fun env => own (clearLinks env S e a) := by
  cases hp : S.place e with
  | own => exact link_atomic (fun _ => pure ()) none (fun env => .inr (.inl ⟨_, by simp only [clearLinks, hp]; rfl⟩)) fun d _ => loose_pure _
  | other =>
    exact link_atomic (fun env => do
      let _ ← execute env (unsetFks (S.set (other e)) (other e) a)
      pure ()) (some .navigation) (fun env => .inl (by simp only [clearLinks, hp])) fun d env =>
      loose_bind (loose_execute _) fun _ => loose_pure _
  | aux =>
    exact link_atomic (fun env => do
      let _ ← execute env (dropLinks e a)
      pure ()) none (fun env => .inl (by simp only [clearLinks, hp])) fun d env =>
      loose_bind (loose_execute _) fun _ => loose_pure _

end Verif.Props.ST
