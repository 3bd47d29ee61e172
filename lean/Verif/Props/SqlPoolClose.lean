import Verif.Props.SqlPool

/-!
# Closed connections, and `close`

A connection that has been closed is never handed out again.  Without `close` no connection is closed while a thread has it; with
`close` this happens, and connections that are in use when it begins may never be closed at all.
-/

namespace Verif.Props

open Verif Verif.OData.Pool Verif.Spec.Pool

namespace PO

/-- The connection is not in the pool, and never will be. -/
def Gone (S : State) (c : Conn) : Prop := c < S.next ∧ ∀ p, p ∈ S.inUse ∨ p ∈ S.unused → p.2.dbc ≠ c

/-- The connections `close` waits for are not in the pool. -/
def Away (S : State) : Prop := ∀ x u l, (x, Point.closing u l) ∈ waiters S → Gone S l.dbc

/-- What a step does to connections that are not in the pool, and to those it closes. -/
structure Still (S : State) (r : State × List Obs) : Prop where
  gone : ∀ c, Gone S c → Gone r.1 c ∧ ∀ t, .got t c ∉ r.2
  closed : ∀ c, .closed c ∈ r.2 → Gone r.1 c ∧ ∀ t, .got t c ∉ r.2
  away : Away S → Away r.1

theorem gone_sub {S S' : State} {c : Conn} (h : Gone S c) (e : S.next ≤ S'.next) (h1 : ∀ p ∈ S'.inUse, ∃ q ∈ S.inUse, q.2.dbc = p.2.dbc)
    (h2 : ∀ p ∈ S'.unused, ∃ q, (q ∈ S.inUse ∨ q ∈ S.unused) ∧ q.2.dbc = p.2.dbc) : Gone S' c := by
  refine ⟨Nat.lt_of_lt_of_le h.1 e, ?_⟩
  intro p hp
  rcases hp with hp | hp
  · obtain ⟨q, hq, e⟩ := h1 p hp
    rw [← e]
    exact h.2 q (.inl hq)
  · obtain ⟨q, hq, e⟩ := h2 p hp
    rw [← e]
    exact h.2 q hq

theorem still_same {S S' : State} {o : List Obs} (e1 : S'.next = S.next) (e2 : S'.inUse = S.inUse)
    (e3 : ∀ p ∈ S'.unused, p ∈ S.unused) (hw : ∀ x ∈ waiters S', x ∈ waiters S ∨ x.2 = .pool ∨ x.2 = .module)
    (ho : ∀ x ∈ o, ∀ t c, x ≠ .got t c) (hc : ∀ c, .closed c ∈ o → Gone S' c) : Still S (S', o) := by
  have key : ∀ c, Gone S c → Gone S' c := by
    intro c h
    refine gone_sub h (Nat.le_of_eq e1.symm) ?_ ?_
    · intro p hp; rw [e2] at hp; exact ⟨p, hp, rfl⟩
    · intro p hp; exact ⟨p, .inr (e3 p hp), rfl⟩
  constructor
  · intro c h
    exact ⟨key c h, fun t hm => ho _ hm t c rfl⟩
  · intro c hm
    exact ⟨hc c hm, fun t hm => ho _ hm t c rfl⟩
  · intro h x u l hx
    rcases hw _ hx with hx | hx | hx
    · exact key _ (h x u l hx)
    · cases hx
    · cases hx

theorem still_take {K S0 S t l obs} (e1 : S0.next ≤ S.next) (e2 : S.inUse = S0.inUse) (e3 : ∀ p ∈ S.unused, p ∈ S0.unused)
    (e4 : waiters S = waiters S0) (hl : ∀ c, Gone S0 c → c ≠ l.dbc) (ho : ∀ x ∈ obs, ∀ t c, x ≠ .got t c)
    (hc : ∀ c, .closed c ∈ obs → Gone S c ∧ c ≠ l.dbc) : Still S0 (take K S t l obs) := by
  have up : ∀ c, Gone S0 c → Gone S c := fun c h =>
    gone_sub h e1 (fun p hp => ⟨p, by rw [← e2]; exact hp, rfl⟩) (fun p hp => ⟨p, .inr (e3 p hp), rfl⟩)
  have key : ∀ k c, Gone S c → c ≠ l.dbc → Gone { S with inUse := put t { l with lock := k, locked := l.locked + 1 } S.inUse } c := by
    intro k c h hne
    refine ⟨h.1, ?_⟩
    intro p hp
    rcases hp with hp | hp
    · rcases mem_put.1 hp with rfl | ⟨hp, _⟩
      · exact Ne.symm hne
      · exact h.2 p (.inl hp)
    · exact h.2 p (.inr hp)
  unfold take
  split
  · constructor
    · intro c h
      exact ⟨up c h, fun t hm => ho _ hm t c rfl⟩
    · intro c hm
      exact ⟨(hc c hm).1, fun t hm => ho _ hm t c rfl⟩
    · intro h x u l hx
      have hx' : (x, Point.closing u l) ∈ waiters S := hx
      rw [e4] at hx'
      exact up _ (h x u l hx')
  · next k _ =>
    have nogot : ∀ c, c ≠ l.dbc → ∀ u, .got u c ∉ obs ++ [.got t l.dbc] := by
      intro c hne u hm
      rcases List.mem_append.1 hm with hm | hm
      · exact ho _ hm u c rfl
      · simp only [List.mem_singleton, Obs.got.injEq] at hm
        exact hne hm.2
    constructor
    · intro c h
      exact ⟨key k c (up c h) (hl c h), nogot c (hl c h)⟩
    · intro c hm
      have hm' : .closed c ∈ obs := by
        rcases List.mem_append.1 hm with hm | hm
        · exact hm
        · simp at hm
      exact ⟨key k c (hc c hm').1 (hc c hm').2, nogot c (hc c hm').2⟩
    · intro h x u m hx
      have hx' : (x, Point.closing u m) ∈ waiters S := hx
      rw [e4] at hx'
      have := h x u m hx'
      exact key k _ (up _ this) (hl _ this)

theorem gone_next {S : State} {c : Conn} (h : Gone S c) : c ≠ S.next := Nat.ne_of_lt h.1

theorem still_search {K S b w t} (E : Env) (h : Inv K S b w) : Still S (search K E S t) := by
  unfold search
  cases hg : entryOf t S.unused with
  | some l =>
    refine still_take (Nat.le_refl _) rfl (fun p hp => (mem_del.1 hp).1) rfl ?_ (by simp) (by simp)
    intro c hc e
    exact hc.2 _ (.inr (get_mem hg)) e.symm
  | none =>
    simp only
    split
    · split
      · exact still_take (Nat.le_succ _) rfl (fun p hp => hp) rfl (fun c hc => gone_next hc) (by simp) (by simp)
      · exact still_same rfl rfl (fun p hp => hp) (fun x hx => .inl hx) (by simp) (by simp)
    · cases hp : popitem E.pick S.unused with
      | some p =>
        obtain ⟨u, l⟩ := p
        have hm := popitem_mem hp
        have out : Gone { S with unused := del u S.unused } l.dbc := by
          refine ⟨h.freshF _ hm, ?_⟩
          intro p hp e
          rcases hp with hp | hp
          · exact use_free h hp hm e
          · obtain ⟨hp, hne⟩ := mem_del.1 hp
            have := h.apart p hp _ hm e
            subst this
            exact hne rfl
        simp only
        split
        · refine still_take (Nat.le_refl _) rfl (fun p hp => (mem_del.1 hp).1) rfl ?_ (by simp) (by simp)
          intro c hc e
          exact hc.2 _ (.inr hm) e.symm
        · split
          · refine still_take (Nat.le_succ _) rfl (fun p hp => (mem_del.1 hp).1) rfl (fun c hc => gone_next hc) (by simp) ?_
            intro c hc
            simp only [List.mem_cons, Obs.closed.injEq, List.not_mem_nil, or_false, reduceCtorEq] at hc
            subst hc
            exact ⟨⟨Nat.lt_succ_of_lt out.1, out.2⟩, Nat.ne_of_lt out.1⟩
          · refine still_same rfl rfl (fun p hp => (mem_del.1 hp).1) (fun x hx => .inl hx) (by simp) ?_
            intro c hc
            simp only [List.mem_cons, Obs.closed.injEq, List.not_mem_nil, or_false, reduceCtorEq] at hc
            subst hc
            exact out
      | none =>
        simp only
        split
        · split <;> exact still_same rfl rfl (fun p hp => hp) (fun x hx => .inl hx) (by simp) (by simp)
        · refine still_same rfl rfl (fun p hp => hp) ?_ (by simp) (by simp)
          intro x hx
          simp only [waiters, ← List.append_assoc, List.mem_append, List.mem_singleton] at hx
          rcases hx with hx | hx
          · exact .inl (List.mem_append.2 hx)
          · exact .inr (.inl (by rw [hx]))

theorem Still.from {S S0 r} (h : Still S r) (e1 : S.next = S0.next) (e2 : S.inUse = S0.inUse) (e3 : S.unused = S0.unused)
    (e4 : ∀ x ∈ waiters S, x ∈ waiters S0) : Still S0 r := by
  have up : ∀ c, Gone S0 c → Gone S c := by
    intro c hc
    unfold Gone at hc ⊢
    rw [e1, e2, e3]
    exact hc
  exact ⟨fun c hc => h.gone c (up c hc), h.closed, fun ha => h.away (fun x u l hx => up _ (ha x u l (e4 _ hx)))⟩

theorem still_enter {K S b w t} (E : Env) (h : Inv K S b w) : Still S (enter K E S t) := by
  unfold enter
  cases hm : tryModule K t S.moduleLock with
  | none =>
    refine still_same rfl rfl (fun p hp => hp) ?_ (by simp) (by simp)
    intro x hx
    simp only [waiters, ← List.append_assoc, List.mem_append, List.mem_singleton] at hx
    rcases hx with hx | hx
    · exact .inl (List.mem_append.2 hx)
    · exact .inr (.inr (by rw [hx]))
  | some m =>
    simp only
    unfold owned
    cases hg : entryOf t S.inUse with
    | none =>
      simp only
      have hnone := get_none hg
      have hi : Inv K { S with moduleLock := m } b w := by
        apply inv_module h
        intro hs u l hl
        obtain ⟨_, _, _, a⟩ := h.user u l hl
        obtain ⟨n, e, _⟩ := a hs
        rw [tryModule, if_pos hs, e, tryLock] at hm
        by_cases hu : u = t
        · subst hu
          exact absurd (mem_keys.2 ⟨l, hl⟩) hnone
        · rw [if_neg hu] at hm; cases hm
      exact (still_search E hi).from rfl rfl rfl (fun x hx => hx)
    | some l =>
      have hl := get_mem hg
      obtain ⟨u1, u2, u3, u4⟩ := h.user t l hl
      have hk : tryConn K t l.lock = some (if K.safety = 0 then none else some (t, l.locked + 1)) := by
        rw [u3]; unfold tryConn
        by_cases hs : K.safety = 0
        · simp [hs]
        · simp [hs, tryLock]
      simp only [hk]
      have up : ∀ m k c, Gone S c → Gone { S with moduleLock := m, inUse := put t { l with lock := k, locked := l.locked + 1 } S.inUse } c := by
        intro m k c hc
        refine gone_sub hc (Nat.le_refl _) ?_ (fun p hp => ⟨p, .inr hp, rfl⟩)
        intro p hp
        rcases mem_put.1 hp with rfl | ⟨hp, _⟩
        · exact ⟨(t, l), hl, rfl⟩
        · exact ⟨p, hp, rfl⟩
      constructor
      · intro c hc
        refine ⟨up m _ c hc, ?_⟩
        intro v hv
        simp only [List.mem_singleton, Obs.got.injEq] at hv
        exact hc.2 _ (.inl hl) hv.2.symm
      · intro c hc
        simp at hc
      · intro ha x u k hx
        exact up m _ _ (ha x u k hx)

theorem still_releaseEntry {K S b w t u l} (h : Inv K S b w) (hl : (u, l) ∈ S.inUse) : Still S (releaseEntry K S t u l) := by
  have up : ∀ m k n c, Gone S c → Gone { S with moduleLock := m, inUse := put u { l with lock := k, locked := n } S.inUse } c := by
    intro m k n c hc
    refine gone_sub hc (Nat.le_refl _) ?_ (fun p hp => ⟨p, .inr hp, rfl⟩)
    intro p hp
    rcases mem_put.1 hp with rfl | ⟨hp, _⟩
    · exact ⟨(u, l), hl, rfl⟩
    · exact ⟨p, hp, rfl⟩
  by_cases hne : t = u
  · subst hne
    obtain ⟨m, k, _, _, _, e⟩ := own h hl
    rw [e]
    by_cases h1 : l.locked = 1
    · rw [if_pos h1]
      have up2 : ∀ c, Gone S c → Gone (notify { S with moduleLock := m, inUse := del t S.inUse, unused := put t { l with lock := none, locked := 0 } S.unused }) c := by
        intro c hc
        obtain ⟨n1, n2, n3, _⟩ := notify_fields { S with moduleLock := m, inUse := del t S.inUse, unused := put t { l with lock := none, locked := 0 } S.unused }
        refine gone_sub hc (Nat.le_of_eq n3.symm) ?_ ?_
        · intro p hp
          rw [n1] at hp
          exact ⟨p, (mem_del.1 hp).1, rfl⟩
        · intro p hp
          rw [n2] at hp
          rcases mem_put.1 hp with rfl | ⟨hp, _⟩
          · exact ⟨(t, l), .inl hl, rfl⟩
          · exact ⟨p, .inr hp, rfl⟩
      constructor
      · intro c hc
        exact ⟨up2 c hc, by simp⟩
      · intro c hc; simp at hc
      · intro ha x v k hx
        have hx' := (mem_notify _ _).1 hx
        exact up2 _ (ha x v k hx')
    · rw [if_neg h1]
      constructor
      · intro c hc
        exact ⟨up _ _ _ c hc, by simp⟩
      · intro c hc; simp at hc
      · intro ha x v k hx
        exact up _ _ _ _ (ha x v k hx)
  · obtain ⟨S', e, he⟩ := foreign h hl hne
    rw [e]
    rcases he with rfl | rfl
    · exact still_same rfl rfl (fun p hp => hp) (fun x hx => .inl hx) (by simp) (by simp)
    · constructor
      · intro c hc
        exact ⟨up S.moduleLock l.lock l.locked c hc, by simp⟩
      · intro c hc; simp at hc
      · intro ha x v k hx
        exact up S.moduleLock l.lock l.locked _ (ha x v k hx)

theorem still_release {K S b w t c} (h : Inv K S b w) : Still S (release K S t c) := by
  have other : Still S (releaseOther K S t c) := by
    unfold releaseOther
    cases hc : byConn c S.inUse with
    | some p => exact still_releaseEntry h (byConn_mem hc).1
    | none =>
      rw [h.dead]
      exact still_same rfl rfl (fun p hp => hp) (fun x hx => .inl hx) (by simp) (by simp)
  unfold release
  cases hg : entryOf t S.inUse with
  | some l =>
    simp only
    split
    · exact still_releaseEntry h (get_mem hg)
    · exact other
  | none => exact other

/-- An entry that is taken out of the pool. -/
theorem gone_del {K S b w u l} (h : Inv K S b w) (hl : (u, l) ∈ S.inUse) : Gone { S with inUse := del u S.inUse } l.dbc := by
  refine ⟨h.freshU _ hl, ?_⟩
  intro p hp e
  rcases hp with hp | hp
  · obtain ⟨hp, hne⟩ := mem_del.1 hp
    exact hne (use_apart h (t := p.1) (l := p.2) hp hl e).1
  · exact use_free h hl (u := p.1) (m := p.2) hp e.symm

theorem still_closeLoop {K b w me} (E : Env) (n : Nat) : ∀ {S : State} {obs : List Obs}, Inv K S b w → me ∉ (waiters S).map (·.1) →
    (∀ x ∈ obs, ∀ t c, x ≠ .got t c) → (∀ c, .closed c ∈ obs → Gone S c) → Still S (closeLoop K E me n S obs) := by
  have done : ∀ {S : State} {obs : List Obs}, (∀ x ∈ obs, ∀ t c, x ≠ .got t c) → (∀ c, .closed c ∈ obs → Gone S c) →
      Still S (S, obs ++ [.finished me]) := by
    intro S obs ho hc
    refine still_same rfl rfl (fun p hp => hp) (fun x hx => .inl hx) ?_ ?_
    · intro x hx t c e
      rcases List.mem_append.1 hx with hx | hx
      · exact ho x hx t c e
      · rw [List.mem_singleton.1 hx] at e; cases e
    · intro c hm
      rcases List.mem_append.1 hm with hm | hm
      · exact hc c hm
      · simp at hm
  induction n with
  | zero => intro S obs h hb ho hc; exact done ho hc
  | succ n ih =>
    intro S obs h hb ho hc
    rw [closeLoop]
    cases hp : popitem E.pick S.inUse with
    | none =>
      have hd := h.dead
      split
      · next e => cases e
      · next e => rw [hd] at e; cases e
      · exact done ho hc
    | some p =>
      obtain ⟨u, l⟩ := p
      have hl := popitem_mem hp
      have hi : Inv K { S with inUse := del u S.inUse } b w := inv_fewer h (del_sublist _ _) (List.Sublist.refl _)
      have up : ∀ c, Gone S c → Gone { S with inUse := del u S.inUse } c := fun c hc =>
        gone_sub hc (Nat.le_refl _) (fun p hp => ⟨p, (mem_del.1 hp).1, rfl⟩) (fun p hp => ⟨p, .inr hp, rfl⟩)
      have go : Still S (closeLoop K E me n { S with inUse := del u S.inUse } (obs ++ [.closed l.dbc])) := by
        have := ih (S := { S with inUse := del u S.inUse }) (obs := obs ++ [.closed l.dbc]) hi hb
          (by
            intro x hx t c e
            rcases List.mem_append.1 hx with hx | hx
            · exact ho x hx t c e
            · rw [List.mem_singleton.1 hx] at e; cases e)
          (by
            intro c hm
            rcases List.mem_append.1 hm with hm | hm
            · exact up c (hc c hm)
            · simp only [List.mem_singleton, Obs.closed.injEq] at hm
              subst hm
              exact gone_del h hl)
        exact ⟨fun c hc => this.gone c (up c hc), this.closed, fun ha => this.away (fun x v k hx => up _ (ha x v k hx))⟩
      simp only
      cases attempt K E me u l false with
      | closed => exact go
      | left => exact go
      | wait =>
        constructor
        · intro c h'
          exact ⟨up c h', fun t hm => ho _ hm t c rfl⟩
        · intro c hm
          exact ⟨up c (hc c hm), fun t hm => ho _ hm t c rfl⟩
        · intro ha x v k hx
          simp only [waiters, ← List.append_assoc, List.mem_append, List.mem_singleton] at hx
          rcases hx with hx | hx
          · exact up _ (ha x v k (List.mem_append.2 hx))
          · cases hx
            exact gone_del h hl
      | loop =>
        have nog : ∀ t c, .got t c ∉ obs ++ [.closed l.dbc] := by
          intro t c hm
          rcases List.mem_append.1 hm with hm | hm
          · exact ho _ hm t c rfl
          · simp at hm
        constructor
        · intro c h'
          exact ⟨up c h', fun t => nog t c⟩
        · intro c hm
          refine ⟨?_, fun t => nog t c⟩
          rcases List.mem_append.1 hm with hm | hm
          · exact up c (hc c hm)
          · simp only [List.mem_singleton, Obs.closed.injEq] at hm
            subst hm
            exact gone_del h hl
        · intro ha x v k hx
          exact up _ (ha x v k hx)

theorem still_close {K S b w me} (E : Env) (h : Inv K S b w) (hb : me ∉ (waiters S).map (·.1)) : Still S (close K E S me) := by
  have up : ∀ c, Gone S c → Gone { S with closing := true, unused := [] } c := fun c hc =>
    gone_sub hc (Nat.le_refl _) (fun p hp => ⟨p, hp, rfl⟩) (fun p hp => by cases hp)
  have : Still { S with closing := true, unused := [] } (close K E S me) := by
    refine still_closeLoop E _ (inv_closing h) hb ?_ ?_
    · intro x hx t c e
      obtain ⟨p, _, e'⟩ := List.mem_map.1 hx
      rw [← e'] at e; cases e
    · intro c hm
      obtain ⟨p, hp, e'⟩ := List.mem_map.1 hm
      simp only [Obs.closed.injEq] at e'
      subst e'
      refine ⟨h.freshF p hp, ?_⟩
      intro q hq e
      rcases hq with hq | hq
      · exact use_free h (t := q.1) (l := q.2) (u := p.1) (m := p.2) hq hp e
      · cases hq
  exact ⟨fun c hc => this.gone c (up c hc), this.closed, fun ha => this.away (fun x v k hx => up _ (ha x v k hx))⟩

theorem still_closeAgain {K S b w me u l} (E : Env) (h : Inv K S b w) (hb : me ∉ (waiters S).map (·.1)) (hg : Gone S l.dbc) :
    Still S (closeAgain K E S me u l) := by
  unfold closeAgain
  split
  · refine still_closeLoop E _ h hb (by simp) ?_
    intro c hm
    simp only [List.mem_singleton, Obs.closed.injEq] at hm
    subst hm
    exact hg
  · exact still_closeLoop E _ h hb (by simp) (by simp)
  · exact still_closeLoop E _ h hb (by simp) (by simp)
  · refine still_same rfl rfl (fun p hp => hp) (fun x hx => .inl hx) (by simp) ?_
    intro c hm
    simp only [List.mem_singleton, Obs.closed.injEq] at hm
    subst hm
    exact hg

theorem still_step {K S b w} (E : Env) (e : Event) (h : Inv K S b w) (ha : Away S) : Still S (step K E S e) := by
  have none : Still S (S, []) := still_same rfl rfl (fun p hp => hp) (fun x hx => .inl hx) (by simp) (by simp)
  have idle : ∀ t, ¬(waiting t (S.awake ++ S.sleeping)).isSome = true → t ∉ (waiters S).map (·.1) := by
    intro t ht
    apply waiting_none
    cases hw : waiting t (S.awake ++ S.sleeping) with
    | none => exact hw
    | some p => rw [hw] at ht; simp at ht
  have res : ∀ {S' : State} {t p}, Inv K S' b w → t ∉ (waiters S').map (·.1) → (t, p) ∈ waiters S → S'.next = S.next →
      S'.inUse = S.inUse → S'.unused = S.unused → (∀ x ∈ waiters S', x ∈ waiters S) → Still S (resume K E S' t p) := by
    intro S' t p hi hb hm e1 e2 e3 e4
    have : Still S' (resume K E S' t p) := by
      cases p with
      | module =>
        rw [resume]
        split
        · exact still_same rfl rfl (fun p hp => hp) (fun x hx => .inl hx) (by simp) (by simp)
        · exact still_enter E hi
      | pool => rw [resume]; exact still_search E hi
      | closing u l =>
        rw [resume]
        refine still_closeAgain E hi hb ?_
        have := ha t u l hm
        unfold Gone at this ⊢
        rw [e1, e2, e3]
        exact this
    exact this.from e1 e2 e3 e4
  unfold step
  split
  · exact none
  · cases e with
    | resume t =>
      simp only
      split
      · next hw =>
        have hm := waiting_mem hw
        have hsub : (S.awake.filter fun w => w.1 ≠ t).Sublist S.awake := List.filter_sublist
        exact res (inv_wake h hsub (List.Sublist.refl _)) ((gone h.wait).1 hm) (List.mem_append_left _ hm) rfl rfl rfl
          (fun x hx => (hsub.append (List.Sublist.refl _)).subset hx)
      · split
        · next hw =>
          have hm := waiting_mem hw
          have hsub : (S.sleeping.filter fun w => w.1 ≠ t).Sublist S.sleeping := List.filter_sublist
          exact res (inv_wake h (List.Sublist.refl _) hsub) ((gone h.wait).2 hm) (List.mem_append_right _ hm) rfl rfl rfl
            (fun x hx => ((List.Sublist.refl _).append hsub).subset hx)
        · exact none
    | acquire t =>
      simp only
      split
      · exact none
      · unfold acquire
        split
        · exact still_same rfl rfl (fun p hp => hp) (fun x hx => .inl hx) (by simp) (by simp)
        · exact still_enter E h
    | release t c =>
      simp only
      split
      · exact none
      · exact still_release h
    | close t =>
      simp only
      split
      · exact none
      · next hn => exact still_close E h (idle t hn)

/-- In the order of the list: nothing is handed out that has been closed before. -/
def NoReuse (H : List Obs) : Prop := H.Pairwise fun x y => ∀ t c, ¬(x = .closed c ∧ y = .got t c)

theorem run_still {K} (sched : List (Env × Event)) : ∀ {S b w}, Inv K S b w → Away S →
    NoReuse (run K S sched).2 ∧ ∀ c, Gone S c → ∀ t, .got t c ∉ (run K S sched).2 := by
  induction sched with
  | nil => intro S b w _ _; exact ⟨List.Pairwise.nil, by simp [run]⟩
  | cons p rest ih =>
    intro S b w h ha
    obtain ⟨E, e⟩ := p
    have st := still_step E e h ha
    obtain ⟨b', w', g⟩ := step_good E e False h False.elim
    obtain ⟨i1, i2⟩ := ih g.inv (st.away ha)
    constructor
    · show List.Pairwise _ ((step K E S e).2 ++ (run K (step K E S e).1 rest).2)
      rw [List.pairwise_append]
      refine ⟨?_, i1, ?_⟩
      · have all : ∀ x ∈ (step K E S e).2, ∀ y ∈ (step K E S e).2, ∀ t c, ¬(x = .closed c ∧ y = .got t c) := by
          intro x hx y hy t c ⟨e1, e2⟩
          rw [e1] at hx
          rw [e2] at hy
          exact (st.closed c hx).2 t hy
        generalize (step K E S e).2 = l at all
        clear i1 i2 g st
        induction l with
        | nil => exact List.Pairwise.nil
        | cons x l ihl =>
          refine List.Pairwise.cons (fun y hy => all x (.head _) y (.tail _ hy)) (ihl ?_)
          intro a ha b hb
          exact all a (.tail _ ha) b (.tail _ hb)
      · intro x hx y hy t c ⟨e1, e2⟩
        rw [e1] at hx
        rw [e2] at hy
        exact i2 c (st.closed c hx).1 t hy
    · intro c hc t hm
      obtain ⟨a1, a2⟩ := st.gone c hc
      rcases List.mem_append.1 hm with hm | hm
      · exact a2 t hm
      · exact i2 c a1 t hm

/-- Whatever happens, and even if the container is closed: a connection that has been closed is never handed out again. -/
theorem closed_never_handed_out (K : Config) (sched : List (Env × Event)) (A B : List Obs) (c : Conn)
    (h : (run K init sched).2 = A ++ .closed c :: B) (t : Tid) : .got t c ∉ B := by
  have := (run_still (K := K) sched (inv_init K) (by intro x u l hx; simp [init, waiters] at hx)).1
  rw [h] at this
  unfold NoReuse at this
  rw [List.pairwise_append] at this
  intro hm
  exact (List.pairwise_cons.1 this.2.1).1 _ hm t c ⟨rfl, rfl⟩

/-! ## Nothing is closed that is in use, unless by `close` -/

/-- Connections are closed first, and only if no thread has them. -/
def Quiet (b : Tid → Conn → Nat) (o : List Obs) : Prop := ∀ A B c, o = A ++ .closed c :: B → A = [] ∧ ∀ t, b t c = 0

theorem quiet_none {b : Tid → Conn → Nat} {o : List Obs} (h : ∀ c, .closed c ∉ o) : Quiet b o := by
  intro A B c e
  exact absurd (by rw [e]; simp) (h c)

theorem quiet_head {b : Tid → Conn → Nat} {o : List Obs} {c : Conn} (h : ∀ d, .closed d ∉ o) (hb : ∀ t, b t c = 0) : Quiet b (.closed c :: o) := by
  intro A B d e
  cases A with
  | nil => simp only [List.nil_append, List.cons.injEq, Obs.closed.injEq] at e; rw [← e.1]; exact ⟨rfl, hb⟩
  | cons a A =>
    simp only [List.cons_append, List.cons.injEq] at e
    exact absurd (by rw [e.2]; simp) (h d)

theorem quiet_take {K S t l obs} {b : Tid → Conn → Nat} (h : obs = [] ∨ (∃ d, obs = [.opened t d]) ∨ ∃ c d, obs = [.closed c, .opened t d] ∧ ∀ u, b u c = 0) :
    Quiet b (take K S t l obs).2 := by
  unfold take
  rcases h with rfl | ⟨d, rfl⟩ | ⟨c, d, rfl, hb⟩
  · split <;> exact quiet_none (by simp)
  · split <;> exact quiet_none (by simp)
  · split
    · exact quiet_head (by simp) hb
    · exact quiet_head (o := [.opened t d, .got t l.dbc]) (by simp) hb

theorem quiet_search {K S b w t} (E : Env) (h : Inv K S b w) : Quiet b (search K E S t).2 := by
  unfold search
  split
  · exact quiet_take (.inl rfl)
  · split
    · split
      · exact quiet_take (.inr (.inl ⟨_, rfl⟩))
      · exact quiet_none (by simp)
    · split
      · next u l hp =>
        have f1 := (h.free u l (popitem_mem hp)).1
        simp only
        split
        · exact quiet_take (.inl rfl)
        · split
          · exact quiet_take (.inr (.inr ⟨_, _, rfl, f1⟩))
          · exact quiet_head (by simp) f1
      · split
        · split <;> exact quiet_none (by simp)
        · exact quiet_none (by simp)

theorem quiet_enter {K S b w t} (E : Env) (h : Inv K S b w) : Quiet b (enter K E S t).2 := by
  unfold enter
  cases hm : tryModule K t S.moduleLock with
  | none => exact quiet_none (by simp)
  | some m =>
    simp only
    unfold owned
    cases hg : entryOf t S.inUse with
    | none =>
      have hi : Inv K { S with moduleLock := m } b w := by
        apply inv_module h
        intro hs u l hl
        obtain ⟨_, _, _, a⟩ := h.user u l hl
        obtain ⟨n, e, _⟩ := a hs
        rw [tryModule, if_pos hs, e, tryLock] at hm
        by_cases hu : u = t
        · subst hu
          exact absurd (mem_keys.2 ⟨l, hl⟩) (get_none hg)
        · rw [if_neg hu] at hm; cases hm
      exact quiet_search E hi
    | some l =>
      obtain ⟨u1, u2, u3, u4⟩ := h.user t l (get_mem hg)
      obtain ⟨k, hk⟩ : ∃ k, tryConn K t l.lock = some k := by
        unfold tryConn
        by_cases hs : K.safety = 0
        · rw [if_pos hs]; exact ⟨_, rfl⟩
        · rw [if_neg hs, u3, if_neg hs, tryLock, if_pos rfl]; exact ⟨_, rfl⟩
      simp only [hk]
      exact quiet_none (by simp)

theorem quiet_release {K S b w t c} (h : Inv K S b w) : Quiet b (release K S t c).2 := by
  have entry : ∀ u l, Quiet b (releaseEntry K S t u l).2 := by
    intro u l
    unfold releaseEntry
    split
    · exact quiet_none (by simp)
    · split
      · exact quiet_none (by simp)
      · simp only
        split <;> exact quiet_none (by simp)
  have other : Quiet b (releaseOther K S t c).2 := by
    unfold releaseOther
    split
    · exact entry _ _
    · rw [h.dead]
      exact quiet_none (o := [.unknown t c]) (by simp)
  unfold release
  split
  · split
    · exact entry _ _
    · exact other
  · exact other

theorem quiet_step {K S b w} (E : Env) (e : Event) (h : Inv K S b w) (hc : Calm S) (he : ∀ t, e ≠ .close t) : Quiet b (step K E S e).2 := by
  have res : ∀ {S' : State} {t p}, Inv K S' b w → (t, p) ∈ waiters S → Quiet b (resume K E S' t p).2 := by
    intro S' t p hi hm
    cases p with
    | module =>
      rw [resume]
      split
      · exact quiet_none (by simp)
      · exact quiet_enter E hi
    | pool => rw [resume]; exact quiet_search E hi
    | closing u l => exact absurd rfl (hc _ hm u l)
  unfold step
  split
  · exact quiet_none (by simp)
  · cases e with
    | resume t =>
      simp only
      split
      · next hw => exact res (inv_wake h List.filter_sublist (List.Sublist.refl _)) (List.mem_append_left _ (waiting_mem hw))
      · split
        · next hw => exact res (inv_wake h (List.Sublist.refl _) List.filter_sublist) (List.mem_append_right _ (waiting_mem hw))
        · exact quiet_none (by simp)
    | acquire t =>
      simp only
      split
      · exact quiet_none (by simp)
      · unfold acquire
        split
        · exact quiet_none (by simp)
        · exact quiet_enter E h
    | release t c =>
      simp only
      split
      · exact quiet_none (by simp)
      · exact quiet_release h
    | close t => exact absurd rfl (he t)

theorem run_quiet {K} (sched : List (Env × Event)) : ∀ {S b w}, Inv K S b w → Calm S → Open sched → ∀ A B c,
    (run K S sched).2 = A ++ .closed c :: B → ∀ t, A.count (.got t c) + b t c = A.count (.released t c) := by
  induction sched with
  | nil => intro S b w _ _ _ A B c e; simp [run] at e
  | cons p rest ih =>
    intro S b w h hc ho A B c e t
    obtain ⟨E, ev⟩ := p
    have he : ∀ t, ev ≠ .close t := fun t => ho _ (.head _) t
    obtain ⟨b', w', g⟩ := step_good E ev True h (fun _ => ⟨hc, he⟩)
    have hq := quiet_step E ev h hc he
    have e' : (step K E S ev).2 ++ (run K (step K E S ev).1 rest).2 = A ++ .closed c :: B := e
    rcases List.append_eq_append_iff.1 e' with ⟨A', e1, e2⟩ | ⟨C', e1, e2⟩
    · have := ih g.inv (step_calm E ev hc he) (fun y hy => ho y (.tail _ hy)) A' B c e2 t
      have bal := g.bal t c
      rw [e1, List.count_append, List.count_append]
      omega
    · cases C' with
      | nil =>
        rw [List.append_nil] at e1
        have := ih g.inv (step_calm E ev hc he) (fun y hy => ho y (.tail _ hy)) [] B c e2.symm t
        have bal := g.bal t c
        rw [← e1]
        simp only [List.count_nil] at this
        omega
      | cons x C' =>
        simp only [List.cons_append, List.cons.injEq] at e2
        obtain ⟨e3, e4⟩ := hq A C' c (by rw [e1, ← e2.1])
        rw [e3, e4 t]
        rfl

/-- As long as the container is not closed, no connection is closed while a thread has it. -/
theorem closed_only_when_unused (K : Config) (sched : List (Env × Event)) (ho : Open sched) (A B : List Obs) (c : Conn)
    (h : (run K init sched).2 = A ++ .closed c :: B) (t : Tid) : ¬Has A t c := by
  have := run_quiet (K := K) sched (inv_init K) (by intro y hy; simp [init, waiters] at hy) ho A B c h t
  unfold Has
  omega

/-! ## `close` -/

theorem step_close_idle {K S b w} (E : Env) (h : Inv K S b w) (hst : S.stuck = false) (hu : S.inUse = []) (hw : waiters S = []) (me : Tid) :
    step K E S (.close me) = ({ S with closing := true, unused := [] }, (S.unused.map fun p => .closed p.2.dbc) ++ [.finished me]) := by
  have e : S.awake ++ S.sleeping = [] := hw
  simp [step, hst, e, waiting, close, hu, h.dead, closeLoop]

/-- The container is closed, nothing is open and nobody waits. -/
structure Shut (S : State) : Prop where
  closing : S.closing = true
  inUse : S.inUse = []
  unused : S.unused = []
  dead : S.dead = []
  none : waiters S = []

theorem shut_step {K S} (E : Env) (e : Event) (h : Shut S) : Shut (step K E S e).1 ∧ ∀ t c, .got t c ∉ (step K E S e).2 ∧ .opened t c ∉ (step K E S e).2 := by
  have hw : S.awake ++ S.sleeping = [] := h.none
  have ha : S.awake = [] := (List.append_eq_nil_iff.1 hw).1
  have hsl : S.sleeping = [] := (List.append_eq_nil_iff.1 hw).2
  unfold step
  split
  · exact ⟨h, by simp⟩
  · cases e with
    | resume t => simp only [ha, hsl, waiting]; exact ⟨h, by simp⟩
    | acquire t =>
      simp only [ha, hsl, waiting, List.append_nil, Option.isSome_none, Bool.false_eq_true, if_false, acquire, h.closing, if_true]
      exact ⟨h, by simp⟩
    | release t c =>
      have : release K S t c = (S, [.unknown t c]) := by
        simp [release, releaseOther, h.inUse, h.dead, entryOf, byConn]
      simp only [ha, hsl, waiting, List.append_nil, Option.isSome_none, Bool.false_eq_true, if_false, this]
      exact ⟨h, by simp⟩
    | close t =>
      have : close K E S t = ({ S with closing := true, unused := [] }, [.finished t]) := by
        simp [close, h.inUse, h.unused, h.dead, closeLoop]
      simp only [ha, hsl, waiting, List.append_nil, Option.isSome_none, Bool.false_eq_true, if_false, this]
      exact ⟨⟨rfl, h.inUse, rfl, h.dead, rfl⟩, by simp⟩

theorem shut_run {K} (sched : List (Env × Event)) : ∀ {S}, Shut S → ∀ t c, .got t c ∉ (run K S sched).2 ∧ .opened t c ∉ (run K S sched).2 := by
  induction sched with
  | nil => intro S _ t c; simp [run]
  | cons p rest ih =>
    intro S h t c
    obtain ⟨E, e⟩ := p
    obtain ⟨h1, h2⟩ := shut_step (K := K) E e h
    obtain ⟨a1, a2⟩ := ih h1 t c
    obtain ⟨b1, b2⟩ := h2 t c
    constructor
    · intro hm
      rcases List.mem_append.1 hm with hm | hm
      · exact b1 hm
      · exact a1 hm
    · intro hm
      rcases List.mem_append.1 hm with hm | hm
      · exact b2 hm
      · exact a2 hm

theorem openings_closed (l : List (Tid × Entry)) (me : Tid) :
    openings (l.map (fun p => Obs.closed p.2.dbc) ++ [.finished me]) = 0 ∧ closings (l.map (fun p => Obs.closed p.2.dbc) ++ [.finished me]) = l.length := by
  induction l with
  | nil => exact ⟨rfl, rfl⟩
  | cons p l ih =>
    constructor
    · simp [openings]
    · have := ih.2
      simp only [closings, List.map_cons, List.cons_append, List.countP_cons, List.length_cons] at this ⊢
      rw [this]
      rfl

/-- If nobody has a connection and nobody waits for one, `close` closes every connection that is open and returns, and nothing is
handed out or opened afterwards, whatever is done. -/
theorem close_of_idle_container (K : Config) (sched : List (Env × Event)) (ho : Open sched) (hnone : ∀ t c, ¬Has (run K init sched).2 t c)
    (hw : ∀ t, ¬Waits (run K init sched).1 t) (E : Env) (me : Tid) :
    let r := run K init (sched ++ [(E, .close me)])
    openings r.2 = closings r.2 ∧ .finished me ∈ r.2 ∧ ∀ rest t c, .got t c ∉ (run K r.1 rest).2 ∧ .opened t c ∉ (run K r.1 rest).2 := by
  obtain ⟨b, w, g⟩ := start (K := K) True sched (fun _ => ho)
  obtain ⟨f1, f2⟩ := g.fine trivial rfl rfl
  have hnil : (run K init sched).1.inUse = [] := by
    cases hu : (run K init sched).1.inUse with
    | nil => rfl
    | cons p rest =>
      obtain ⟨u, l⟩ := p
      have hm : (u, l) ∈ (run K init sched).1.inUse := by rw [hu]; exact .head _
      obtain ⟨a1, a2, _⟩ := g.inv.user u l hm
      exact absurd ((has_iff g u l.dbc).2 (by omega)) (hnone u l.dbc)
  have hwn : waiters (run K init sched).1 = [] := by
    cases hu : waiters (run K init sched).1 with
    | nil => rfl
    | cons p rest =>
      exfalso
      refine hw p.1 ?_
      unfold Waits
      have : (run K init sched).1.awake ++ (run K init sched).1.sleeping = p :: rest := hu
      rw [this, waiting, if_pos rfl]
      rfl
  have happ : ∀ (S : State) (a : List (Env × Event)), run K S (a ++ [(E, .close me)]) =
      ((step K E (run K S a).1 (.close me)).1, (run K S a).2 ++ (step K E (run K S a).1 (.close me)).2) := by
    intro S a
    induction a generalizing S with
    | nil => simp [run]
    | cons p a ih =>
      obtain ⟨F, f⟩ := p
      simp only [List.cons_append, run]
      rw [ih, List.append_assoc]
  have cnt := g.count trivial
  rw [hnil] at cnt
  have e1 : init.inUse.length = 0 := rfl
  have e2 : init.unused.length = 0 := rfl
  simp only
  rw [happ, step_close_idle E g.inv f1 hnil hwn]
  obtain ⟨o1, o2⟩ := openings_closed (run K init sched).1.unused me
  refine ⟨?_, ?_, ?_⟩
  · rw [openings_append, closings_append, o1, o2]
    simp only [List.length_nil] at cnt
    omega
  · simp
  · intro rest t c
    exact shut_run rest (S := { (run K init sched).1 with closing := true, unused := [] }) ⟨rfl, hnil, rfl, g.inv.dead, hwn⟩ t c

/-! ## Cases -/

/-- No thread but the one that runs is alive. -/
def E3 : Env := ⟨true, false, fun _ => 0, fun _ => false⟩

/-- A container with two connections that are not in use. -/
example : (run ⟨1, 2⟩ init [(E0, .acquire 1), (E0, .acquire 2), (E0, .release 1 0), (E0, .release 2 1), (E0, .close 3), (E0, .acquire 1)]).2 =
    [.opened 1 0, .got 1 0, .opened 2 1, .got 2 1, .released 1 0, .released 2 1, .closed 1, .closed 0, .finished 3, .refused 1] := by
  decide +kernel

/-- `close` waits for a thread to give its connection back; the thread does so, but this is not noticed: the connection stays
open. -/
theorem close_after_release_refuted :
    ¬∀ (K : Config) (E : Env) (t me : Tid) (c : Conn), E.opens = true → (∀ u, E.alive u = true) →
      let r := run K init [(E, .acquire t), (E, .close me), (E, .release t c), (E, .resume me)]
      .got t c ∈ r.2 → .finished me ∈ r.2 → .released t c ∈ r.2 ∧ .closed c ∈ r.2 := by
  intro h
  have e : (run ⟨1, 1⟩ init [(E0, .acquire 1), (E0, .close 2), (E0, .release 1 0), (E0, .resume 2)]).2 =
      [.opened 1 0, .got 1 0, .unknown 1 0, .finished 2] := by decide +kernel
  have := h ⟨1, 1⟩ E0 1 2 0 rfl (fun _ => rfl)
  simp only [e] at this
  simp at this

/-- A thread that waits for a connection while the container is closed opens a new one afterwards. -/
theorem nothing_opened_after_close_refuted :
    ¬∀ (K : Config) (sched : List (Env × Event)) (A B : List Obs) (me t : Tid) (c : Conn),
      (run K init sched).2 = A ++ .finished me :: B → .opened t c ∉ B := by
  intro h
  have e : (run ⟨1, 1⟩ init [(E0, .acquire 1), (E0, .acquire 2), (E0, .close 3), (E0, .resume 3), (E0, .resume 2)]).2 =
      [.opened 1 0, .got 1 0] ++ .finished 3 :: [.opened 2 1, .got 2 1] := by decide +kernel
  exact h _ _ _ _ _ _ _ e (.head _)

/-- `close` closes connections that threads have, if the module must not be shared. -/
theorem closed_only_when_unused_refuted :
    ¬∀ (K : Config) (sched : List (Env × Event)) (A B : List Obs) (c : Conn), (run K init sched).2 = A ++ .closed c :: B → ∀ t, ¬Has A t c := by
  intro h
  have e : (run ⟨0, 1⟩ init [(E0, .acquire 1), (E0, .close 2)]).2 = [.opened 1 0, .got 1 0] ++ .closed 0 :: [.finished 2] := by decide +kernel
  exact h _ _ _ _ _ e 1 (by unfold Has; decide)

/-- A thread that has ended without giving its connection back makes `close` loop for ever with the lock of the pool: nothing
happens any more, whatever is tried. -/
theorem close_of_dead_thread_never_returns (K : Config) (hs : K.safety ≠ 0) (hmax : 0 < K.max) (E F : Env) (t me : Tid) (hne : t ≠ me)
    (hE : E.opens = true) (hF : F.alive t = false) (rest : List (Env × Event)) :
    (run K init ((E, .acquire t) :: (F, .close me) :: rest)).2 = [.opened t 0, .got t 0, .closed 0] := by
  have stuck : ∀ (rest : List (Env × Event)) (S : State), S.stuck = true → (run K S rest).2 = [] := by
    intro rest
    induction rest with
    | nil => intro S _; rfl
    | cons p rest ih =>
      intro S h
      obtain ⟨G, g⟩ := p
      have : step K G S g = (S, []) := by simp [step, h]
      simp only [run, this, List.nil_append]
      exact ih S h
  have hcap : 0 < K.cap := by unfold Config.cap; rw [if_neg hs]; exact hmax
  have e1 : step K E init (.acquire t) = ({ init with inUse := [(t, ⟨0, some (t, 1), 1⟩)], next := 1 }, [.opened t 0, .got t 0]) := by
    simp [step, init, waiting, acquire, enter, tryModule, hs, owned, entryOf, search, hcap, hE, take, tryConn, tryLock, put, del]
  have e2 : (step K F { init with inUse := [(t, ⟨0, some (t, 1), 1⟩)], next := 1 } (.close me)).2 = [.closed 0] ∧
      (step K F { init with inUse := [(t, ⟨0, some (t, 1), 1⟩)], next := 1 } (.close me)).1.stuck = true := by
    simp [step, init, waiting, close, closeLoop, popitem, attempt, tryConn, hs, tryLock, hne, hF, Nat.mod_one]
  simp only [run, e1]
  rw [e2.1, stuck rest _ e2.2]
  rfl

end PO

end Verif.Props
