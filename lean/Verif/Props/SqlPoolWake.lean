import Verif.Props.SqlPool

/-!
# Whether waiting for a connection ends

While connections can be opened, and (for a module that must not be shared) no thread runs out of time, a thread that waits is
woken up: if nobody has a connection then some waiting thread has been notified, and it gets a connection as soon as it runs.
Otherwise a notification can be lost, or the lock of the module be kept for ever.
-/

namespace Verif.Props

open Verif Verif.OData.Pool Verif.Spec.Pool

namespace PO

/-- The lock of the module is acquired as often as the connection. -/
def Exact (K : Config) (S : State) : Prop := K.safety = 0 → ∀ t n, S.moduleLock = some (t, n) → ∃ l, (t, l) ∈ S.inUse ∧ l.locked = n

/-- Whoever sleeps does so because all connections are in use or will be. -/
def Wake (K : Config) (S : State) : Prop := S.sleeping = [] ∨ K.cap ≤ S.inUse.length + S.awake.length

/-- The same with one thread more. -/
def Wake1 (K : Config) (S : State) : Prop := S.sleeping = [] ∨ K.cap ≤ S.inUse.length + S.awake.length + 1

theorem take_wake {K S b w t l} (h : Inv K S b w) (hl : Loose K S b w t l) (obs : List Obs) (hw : Wake1 K S)
    (hm : K.safety = 0 → S.moduleLock = some (t, 1)) : Wake K (take K S t l obs).1 ∧ Exact K (take K S t l obs).1 := by
  obtain ⟨S', e, hi, e1, e2, e3, e4, e5, e6, ⟨m, em, e7⟩, e8⟩ := take_inv h hl obs
  rw [e]
  constructor
  · rcases hw with hw | hw
    · exact .inl (by rw [e4]; exact hw)
    · right
      show _ ≤ S'.inUse.length + S'.awake.length
      rw [e7, e5, put, del_absent hl.absent, List.length_cons]
      omega
  · intro hs u n hn
    have hn' : S'.moduleLock = some (u, n) := hn
    rw [e8, hm hs] at hn'
    cases hn'
    have hmem : (t, m) ∈ S'.inUse := by rw [e7]; exact mem_put.2 (.inl rfl)
    obtain ⟨a1, _, _, a4⟩ := hi.user t m hmem
    refine ⟨m, hmem, ?_⟩
    rw [← a1, em, bump_same, hl.zero]

/-- What `search` does if connections can be opened: it takes one, or all are in use. -/
theorem search_cases {K S b w t} (E : Env) (h : Inv K S b w) (hr : Ready K S t) (ho : E.opens = true) :
    (∃ S' b' w' l obs, Inv K S' b' w' ∧ Loose K S' b' w' t l ∧ S'.inUse = S.inUse ∧ S'.awake = S.awake ∧ S'.sleeping = S.sleeping ∧
      S'.moduleLock = S.moduleLock ∧ search K E S t = take K S' t l obs) ∨
    (K.safety ≠ 0 ∧ K.cap ≤ S.inUse.length ∧ (search K E S t = (S, [.timedOut t]) ∨
      search K E S t = ({ S with sleeping := S.sleeping ++ [(t, .pool)] }, []))) := by
  unfold search
  cases hg : entryOf t S.unused with
  | some l =>
    left
    have hm := get_mem hg
    have hi : Inv K { S with unused := del t S.unused } b w := inv_fewer h (List.Sublist.refl _) (del_sublist _ _)
    obtain ⟨f1, f2, f3⟩ := h.free t l hm
    have hd := length_del h.keysF (mem_keys.2 ⟨l, hm⟩)
    have hl : Loose K { S with unused := del t S.unused } b w t l := {
      absent := hr.absent
      alone := by
        intro hk
        obtain ⟨m, hm⟩ := mem_keys.1 hk
        exact (mem_del.1 hm).2 rfl
      busy := hr.busy
      lock := f3
      locked := f2
      old := h.freshF _ hm
      zero := f1
      apart := by
        intro p hp e
        obtain ⟨hp, hne⟩ := mem_del.1 hp
        have := h.apart p hp _ hm e
        subst this
        exact hne rfl
      opener := fun hs => h.opener hs _ (.inr hm)
      module := hr.module
      room := by
        have := h.size
        show S.inUse.length + (del t S.unused).length < _
        omega }
    exact ⟨_, _, _, _, _, hi, hl, rfl, rfl, rfl, rfl, rfl⟩
  | none =>
    simp only
    by_cases hroom : S.unused.length + S.inUse.length < K.cap
    · left
      rw [if_pos hroom, if_pos ho]
      have hl : Loose K { S with next := S.next + 1 } b (note w S.next t) t ⟨S.next, none, 0⟩ := {
        absent := hr.absent
        alone := get_none hg
        busy := hr.busy
        lock := rfl
        locked := rfl
        old := Nat.lt_succ_self _
        zero := fun u => h.fresh u _ (Nat.le_refl _)
        apart := fun p hp => Nat.ne_of_lt (h.freshF p hp)
        opener := fun _ => note_same ..
        module := hr.module
        room := by
          show S.inUse.length + S.unused.length < _
          omega }
      exact ⟨_, _, _, _, _, inv_next h t, hl, rfl, rfl, rfl, rfl, rfl⟩
    · rw [if_neg hroom]
      cases hp : popitem E.pick S.unused with
      | some p =>
        left
        obtain ⟨u, l⟩ := p
        have hm := popitem_mem hp
        have hi : Inv K { S with unused := del u S.unused } b w := inv_fewer h (List.Sublist.refl _) (del_sublist _ _)
        obtain ⟨f1, f2, f3⟩ := h.free u l hm
        have hd := length_del h.keysF (mem_keys.2 ⟨l, hm⟩)
        simp only
        by_cases hs : K.safety > 1
        · rw [if_pos hs]
          have hl : Loose K { S with unused := del u S.unused } b w t l := {
            absent := hr.absent
            alone := fun hk => get_none hg (((del_sublist u S.unused).map _).subset hk)
            busy := hr.busy
            lock := f3
            locked := f2
            old := h.freshF _ hm
            zero := f1
            apart := by
              intro p hp e
              obtain ⟨hp, hne⟩ := mem_del.1 hp
              have := h.apart p hp _ hm e
              subst this
              exact hne rfl
            opener := fun hs' => by omega
            module := hr.module
            room := by
              have := h.size
              show S.inUse.length + (del u S.unused).length < _
              omega }
          exact ⟨_, _, _, _, _, hi, hl, rfl, rfl, rfl, rfl, rfl⟩
        · rw [if_neg hs, if_pos ho]
          have hl : Loose K { S with unused := del u S.unused, next := S.next + 1 } b (note w S.next t) t { l with dbc := S.next } := {
            absent := hr.absent
            alone := fun hk => get_none hg (((del_sublist u S.unused).map _).subset hk)
            busy := hr.busy
            lock := f3
            locked := f2
            old := Nat.lt_succ_self _
            zero := fun u => h.fresh u _ (Nat.le_refl _)
            apart := fun p hp => Nat.ne_of_lt (h.freshF p (mem_del.1 hp).1)
            opener := fun _ => note_same ..
            module := hr.module
            room := by
              have := h.size
              show S.inUse.length + (del u S.unused).length < _
              omega }
          exact ⟨_, _, _, _, _, inv_next hi t, hl, rfl, rfl, rfl, rfl, rfl⟩
      | none =>
        right
        have hun := popitem_none hp
        have hs : K.safety ≠ 0 := by
          intro hs
          have := nil_of_module h hr hs
          rw [hun, this] at hroom
          simp [Config.cap, hs] at hroom
        have hfull : K.cap ≤ S.inUse.length := by
          rw [hun] at hroom
          simp only [List.length_nil] at hroom
          omega
        refine ⟨hs, hfull, ?_⟩
        simp only
        by_cases hlate : E.late = true
        · rw [if_pos hlate]
          have : unlockModule K t S.moduleLock = some S.moduleLock := by unfold unlockModule; rw [if_neg hs]
          rw [this]
          exact .inl rfl
        · rw [if_neg hlate]
          exact .inr rfl

theorem search_wake {K S b w t} (E : Env) (h : Inv K S b w) (hr : Ready K S t) (ho : E.opens = true) (hw : Wake1 K S)
    (hm : K.safety = 0 → S.moduleLock = some (t, 1)) : Wake K (search K E S t).1 ∧ Exact K (search K E S t).1 := by
  rcases search_cases E h hr ho with ⟨S', b', w', l, obs, hi, hl, e1, e2, e3, e4, e⟩ | ⟨hs, hfull, e⟩
  · rw [e]
    refine take_wake hi hl obs ?_ (by rw [e4]; exact hm)
    unfold Wake1
    rw [e1, e2, e3]
    exact hw
  · rcases e with e | e <;> rw [e]
    · exact ⟨.inr (by show _ ≤ S.inUse.length + _; omega), fun x => absurd x hs⟩
    · exact ⟨.inr (by show _ ≤ S.inUse.length + S.awake.length; omega), fun x => absurd x hs⟩

theorem enter_wake {K S b w t} (E : Env) (h : Inv K S b w) (hb : t ∉ (waiters S).map (·.1)) (ho : E.opens = true)
    (hx : Exact K S) (hw : Wake1 K S) (hw' : K.safety ≠ 0 → Wake K S) :
    Wake K (enter K E S t).1 ∧ Exact K (enter K E S t).1 := by
  have cap : K.safety = 0 → K.cap = 1 := fun hs => by simp [Config.cap, hs]
  unfold enter
  cases hm : tryModule K t S.moduleLock with
  | none =>
    have hs : K.safety = 0 := by
      apply Classical.byContradiction
      intro hs
      rw [tryModule, if_neg hs] at hm
      cases hm
    cases hml : S.moduleLock with
    | none => rw [tryModule, if_pos hs, hml] at hm; cases hm
    | some p =>
      obtain ⟨o, n⟩ := p
      obtain ⟨l, hl, _⟩ := hx hs o n hml
      refine ⟨.inr ?_, fun _ u k hk => hx hs u k (by rw [hml]; exact hk)⟩
      have := List.length_pos_of_mem hl
      show _ ≤ S.inUse.length + _
      rw [cap hs]
      omega
  | some m =>
    simp only
    have mod : K.safety = 0 → (S.moduleLock = none ∧ m = some (t, 1)) ∨ (∃ n, S.moduleLock = some (t, n) ∧ m = some (t, n + 1)) := by
      intro hs
      rw [tryModule, if_pos hs] at hm
      cases hml : S.moduleLock with
      | none => rw [hml] at hm; cases hm; exact .inl ⟨rfl, rfl⟩
      | some p =>
        obtain ⟨o, n⟩ := p
        rw [hml, tryLock] at hm
        by_cases ho : o = t
        · rw [if_pos ho] at hm; cases hm; subst ho; exact .inr ⟨n, rfl, rfl⟩
        · rw [if_neg ho] at hm; cases hm
    unfold owned
    cases hg : entryOf t S.inUse with
    | some l =>
      have hl := get_mem hg
      obtain ⟨u1, u2, u3, u4⟩ := h.user t l hl
      have hk : tryConn K t l.lock = some (if K.safety = 0 then none else some (t, l.locked + 1)) := by
        rw [u3]; unfold tryConn
        by_cases hs : K.safety = 0
        · simp [hs]
        · simp [hs, tryLock]
      simp only [hk]
      constructor
      · by_cases hs : K.safety = 0
        · right
          show _ ≤ (put t _ S.inUse).length + _
          rw [put_length h.keysU hl, cap hs]
          have := List.length_pos_of_mem hl
          omega
        · rcases hw' hs with a | a
          · exact .inl a
          · right
            show _ ≤ (put t _ S.inUse).length + _
            rw [put_length h.keysU hl]
            exact a
      · intro hs u n hn
        have hn' : m = some (u, n) := hn
        rcases mod hs with ⟨e, _⟩ | ⟨n', e, e'⟩
        · obtain ⟨n, e', _⟩ := u4 hs
          rw [e] at e'
          cases e'
        · rw [e'] at hn'
          cases hn'
          refine ⟨_, mem_put.2 (.inl rfl), ?_⟩
          show l.locked + 1 = n' + 1
          obtain ⟨l', hl', e2⟩ := hx hs t n' e
          have := unique h.keysU hl hl'
          subst this
          rw [e2]
    | none =>
      simp only
      have hm1 : K.safety = 0 → m = some (t, 1) := by
        intro hs
        rcases mod hs with ⟨_, e⟩ | ⟨n, e, _⟩
        · exact e
        · obtain ⟨l, hl, _⟩ := hx hs t n e
          exact absurd (mem_keys.2 ⟨l, hl⟩) (get_none hg)
      have hi : Inv K { S with moduleLock := m } b w := by
        apply inv_module h
        intro hs u l hl
        obtain ⟨_, _, _, a⟩ := h.user u l hl
        obtain ⟨n, e, hn⟩ := a hs
        rcases mod hs with ⟨e', _⟩ | ⟨n', e', _⟩
        · rw [e'] at e; cases e
        · rw [e'] at e; cases e
          exact absurd (mem_keys.2 ⟨l, hl⟩) (get_none hg)
      exact search_wake E hi ⟨get_none hg, hb, fun hs => ⟨1, hm1 hs, Nat.le_refl _⟩⟩ ho hw hm1

theorem notify_wake {K : Config} {S : State} (h : Wake1 K S) : Wake K (notify S) := by
  unfold notify
  cases hs : S.sleeping with
  | nil => exact .inl hs
  | cons w rest =>
    simp only
    rcases h with h | h
    · rw [hs] at h; cases h
    · right
      show _ ≤ S.inUse.length + (S.awake ++ [w]).length
      rw [List.length_append, List.length_singleton]
      omega

theorem releaseEntry_wake {K S b w t u l} (h : Inv K S b w) (hl : (u, l) ∈ S.inUse) (hw : Wake K S) (hx : Exact K S) :
    Wake K (releaseEntry K S t u l).1 ∧ Exact K (releaseEntry K S t u l).1 := by
  obtain ⟨u1, u2, u3, u4⟩ := h.user u l hl
  by_cases hne : t = u
  · subst hne
    obtain ⟨m, k, hm1, hm2, ek, e⟩ := own h hl
    have exn : K.safety = 0 → S.moduleLock = some (t, l.locked) := by
      intro hs
      obtain ⟨n, e, _⟩ := u4 hs
      obtain ⟨l', hl', e'⟩ := hx hs t n e
      have := unique h.keysU hl hl'
      subst this
      rw [e, e']
    rw [e]
    by_cases h1 : l.locked = 1
    · rw [if_pos h1]
      constructor
      · apply notify_wake
        rcases hw with a | a
        · exact .inl a
        · right
          have := length_del h.keysU (mem_keys.2 ⟨l, hl⟩)
          show _ ≤ (del t S.inUse).length + S.awake.length + 1
          omega
      · intro hs v n hn
        rw [(notify_fields _).2.2.2.1] at hn
        have hn' : m = some (v, n) := hn
        have := hm2 hs 1 (by rw [exn hs, h1])
        rw [this] at hn'
        cases hn'
    · rw [if_neg h1]
      constructor
      · rcases hw with a | a
        · exact .inl a
        · right
          show _ ≤ (put t _ S.inUse).length + _
          rw [put_length h.keysU hl]
          exact a
      · intro hs v n hn
        have hn' : m = some (v, n) := hn
        have := hm2 hs l.locked (exn hs)
        rw [this, if_neg (by omega)] at hn'
        cases hn'
        exact ⟨_, mem_put.2 (.inl rfl), rfl⟩
  · obtain ⟨S', e, he⟩ := foreign h hl hne
    rw [e]
    rcases he with rfl | rfl
    · exact ⟨hw, hx⟩
    · constructor
      · rcases hw with a | a
        · exact .inl a
        · right
          show _ ≤ (put u _ S.inUse).length + _
          rw [put_length h.keysU hl]
          exact a
      · intro hs v n hn
        obtain ⟨l', hl', e'⟩ := hx hs v n hn
        by_cases hv : v = u
        · subst hv
          have := unique h.keysU hl hl'
          subst this
          exact ⟨_, mem_put.2 (.inl rfl), e'⟩
        · exact ⟨l', mem_put.2 (.inr ⟨hl', hv⟩), e'⟩

theorem release_wake {K S b w t c} (h : Inv K S b w) (hw : Wake K S) (hx : Exact K S) :
    Wake K (release K S t c).1 ∧ Exact K (release K S t c).1 := by
  have other : Wake K (releaseOther K S t c).1 ∧ Exact K (releaseOther K S t c).1 := by
    unfold releaseOther
    cases hc : byConn c S.inUse with
    | some p => exact releaseEntry_wake h (byConn_mem hc).1 hw hx
    | none => rw [h.dead]; exact ⟨hw, hx⟩
  unfold release
  cases hg : entryOf t S.inUse with
  | some l =>
    simp only
    split
    · exact releaseEntry_wake h (get_mem hg) hw hx
    · exact other
  | none => exact other

theorem filter_awake {a : List (Tid × Point)} {t : Tid} {p : Point} (hn : (a.map (·.1)).Nodup) (hm : (t, p) ∈ a) :
    (a.filter fun w => w.1 ≠ t).length + 1 = a.length := by
  induction a with
  | nil => cases hm
  | cons x a ih =>
    rw [List.map_cons, List.nodup_cons] at hn
    by_cases e : x.1 = t
    · have : ∀ y ∈ a, y.1 ≠ t := by
        intro y hy ey
        exact hn.1 (by rw [e, ← ey]; exact List.mem_map_of_mem (f := (·.1)) hy)
      have e2 : a.filter (fun w => decide (w.1 ≠ t)) = a := List.filter_eq_self.2 (fun y hy => by simpa using this y hy)
      rw [List.filter_cons, if_neg (by simp [e]), e2, List.length_cons]
    · have hm' : (t, p) ∈ a := by
        rcases List.mem_cons.1 hm with rfl | hm
        · exact absurd rfl e
        · exact hm
      rw [List.filter_cons, if_pos (by simpa using e), List.length_cons, List.length_cons, ih hn.2 hm']

theorem step_wake {K S b w} (E : Env) (e : Event) (h : Inv K S b w) (hc : Calm S) (he : ∀ t, e ≠ .close t) (ho : E.opens = true)
    (hl : K.safety = 0 → E.late = false) (hw : Wake K S) (hx : Exact K S) : Wake K (step K E S e).1 ∧ Exact K (step K E S e).1 := by
  have up : Wake1 K S := hw.imp id (fun a => by omega)
  have idle : ∀ t, ¬(waiting t (S.awake ++ S.sleeping)).isSome = true → t ∉ (waiters S).map (·.1) := by
    intro t ht
    apply waiting_none
    cases hw : waiting t (S.awake ++ S.sleeping) with
    | none => exact hw
    | some p => rw [hw] at ht; simp at ht
  have res : ∀ {S' : State} {t p}, Inv K S' b w → t ∉ (waiters S').map (·.1) → (t, p) ∈ waiters S → S'.inUse = S.inUse → Exact K S' →
      Wake1 K S' → Wake K (resume K E S' t p).1 ∧ Exact K (resume K E S' t p).1 := by
    intro S' t p hi hb hm hin hx' hw'
    cases p with
    | module =>
      have hs : K.safety = 0 := Classical.byContradiction fun hs => h.noModule hs t hm
      rw [resume, if_neg (by rw [hl hs]; simp)]
      exact enter_wake E hi hb ho hx' hw' (fun x => absurd hs x)
    | pool =>
      have hs : K.safety ≠ 0 := fun hs => h.noPool hs t hm
      rw [resume]
      exact search_wake E hi ⟨by rw [hin]; exact h.idle t _ hm (by simp), hb, fun x => absurd x hs⟩ ho hw' (fun x => absurd x hs)
    | closing u l => exact absurd rfl (hc _ hm u l)
  unfold step
  split
  · exact ⟨hw, hx⟩
  · cases e with
    | resume t =>
      simp only
      cases ha : waiting t S.awake with
      | some p =>
        have hm := waiting_mem ha
        have hna : (S.awake.map (·.1)).Nodup := by
          have := h.wait
          rw [waiters, List.map_append, List.nodup_append] at this
          exact this.1
        refine res (inv_wake h List.filter_sublist (List.Sublist.refl _)) ((gone h.wait).1 hm) (List.mem_append_left _ hm) rfl hx ?_
        have := filter_awake hna hm
        rcases hw with a | a
        · exact .inl a
        · right
          show _ ≤ S.inUse.length + (S.awake.filter _).length + 1
          omega
      | none =>
        simp only
        cases hs : waiting t S.sleeping with
        | some p =>
          have hm := waiting_mem hs
          refine res (inv_wake h (List.Sublist.refl _) List.filter_sublist) ((gone h.wait).2 hm) (List.mem_append_right _ hm) rfl hx ?_
          rcases hw with a | a
          · rw [a] at hm; cases hm
          · right
            show _ ≤ S.inUse.length + S.awake.length + 1
            omega
        | none => exact ⟨hw, hx⟩
    | acquire t =>
      simp only
      split
      · exact ⟨hw, hx⟩
      · next hn =>
        unfold acquire
        split
        · exact ⟨hw, hx⟩
        · exact enter_wake E h (idle t hn) ho hx up (fun _ => hw)
    | release t c =>
      simp only
      split
      · exact ⟨hw, hx⟩
      · exact release_wake h hw hx
    | close t => exact absurd rfl (he t)

theorem run_wake {K} (sched : List (Env × Event)) : ∀ {S b w}, Inv K S b w → Calm S → Open sched → AllOpen sched →
    (K.safety = 0 → InTime sched) → Wake K S → Exact K S → Wake K (run K S sched).1 ∧ Exact K (run K S sched).1 := by
  induction sched with
  | nil => intro S b w _ _ _ _ _ hw hx; exact ⟨hw, hx⟩
  | cons p rest ih =>
    intro S b w h hc ho ha ht hw hx
    obtain ⟨E, e⟩ := p
    have he : ∀ t, e ≠ .close t := fun t => ho _ (.head _) t
    obtain ⟨hw', hx'⟩ := step_wake E e h hc he (ha _ (.head _)) (fun hs => ht hs _ (.head _)) hw hx
    obtain ⟨b', w', g⟩ := step_good E e True h (fun _ => ⟨hc, he⟩)
    exact ih g.inv (step_calm E e hc he) (fun y hy => ho y (.tail _ hy)) (fun y hy => ha y (.tail _ hy))
      (fun hs y hy => ht hs y (.tail _ hy)) hw' hx'

/-- A thread that is able to take a connection gets one. -/
theorem search_serves {K S b w t} (E : Env) (h : Inv K S b w) (hr : Ready K S t) (ho : E.opens = true) (hn : S.inUse.length < K.cap) :
    ∃ c, .got t c ∈ (search K E S t).2 := by
  rcases search_cases E h hr ho with ⟨S', b', w', l, obs, hi, hl, e1, e2, e3, e4, e⟩ | ⟨hs, hfull, e⟩
  · obtain ⟨S'', e', _⟩ := take_inv hi hl obs
    rw [e, e']
    exact ⟨l.dbc, List.mem_append_right _ (.head _)⟩
  · omega

theorem waiting_of_mem {t : Tid} {p : Point} {d : List (Tid × Point)} (h : (t, p) ∈ d) : ∃ r, waiting t d = some r := by
  cases hw : waiting t d with
  | some r => exact ⟨r, rfl⟩
  | none => exact absurd (List.mem_map_of_mem (f := (·.1)) h) (waiting_none hw)

/-- While connections can be opened (and, with a module that must not be shared, nobody runs out of time) there is no deadlock:
if threads wait and nobody has a connection, some waiting thread has been notified, and every notified thread gets a connection
as soon as it runs. -/
theorem waiting_thread_is_woken (K : Config) (sched : List (Env × Event)) (hcap : 0 < K.cap) (ho : Open sched) (ha : AllOpen sched)
    (hin : K.safety = 0 → InTime sched) (hnone : ∀ t c, ¬Has (run K init sched).2 t c) (t : Tid) (ht : Waits (run K init sched).1 t) :
    (∃ u, Notified (run K init sched).1 u) ∧ ∀ u, Notified (run K init sched).1 u → ∀ E : Env, E.opens = true → E.late = false →
      ∃ c, .got u c ∈ (step K E (run K init sched).1 (.resume u)).2 := by
  obtain ⟨b, w, g⟩ := start (K := K) True sched (fun _ => ho)
  obtain ⟨f1, f2⟩ := g.fine trivial rfl rfl
  have calm0 : Calm init := by intro y hy; simp [init, waiters] at hy
  have calm := run_calm (K := K) sched calm0 ho
  obtain ⟨hw, hx⟩ := run_wake sched (inv_init K) calm0 ho ha hin (.inl rfl) (by intro _ t n hn; cases hn)
  have hnil : (run K init sched).1.inUse = [] := by
    cases hu : (run K init sched).1.inUse with
    | nil => rfl
    | cons p rest =>
      obtain ⟨u, l⟩ := p
      have hm : (u, l) ∈ (run K init sched).1.inUse := by rw [hu]; exact .head _
      obtain ⟨a1, a2, _⟩ := g.inv.user u l hm
      exact absurd ((has_iff g u l.dbc).2 (by omega)) (hnone u l.dbc)
  have hi := g.inv
  generalize (run K init sched).1 = S at *
  constructor
  · have : S.awake ≠ [] := by
      intro e
      rcases hw with hw | hw
      · unfold Waits at ht
        rw [e, hw] at ht
        cases ht
      · rw [hnil, e] at hw
        simp only [List.length_nil] at hw
        omega
    obtain ⟨⟨u, p⟩, rest, e⟩ := List.exists_cons_of_ne_nil this
    obtain ⟨r, hr⟩ := waiting_of_mem (t := u) (p := p) (d := S.awake) (by rw [e]; exact .head _)
    exact ⟨u, by unfold Notified; rw [hr]; rfl⟩
  · intro u hu E hE hL
    unfold Notified at hu
    cases hp : waiting u S.awake with
    | none => rw [hp] at hu; cases hu
    | some p =>
      have hm := waiting_mem hp
      have hmw : (u, p) ∈ waiters S := List.mem_append_left _ hm
      have hb := (gone hi.wait).1 hm
      have hi' : Inv K { S with awake := S.awake.filter fun w => w.1 ≠ u } b w := inv_wake hi List.filter_sublist (List.Sublist.refl _)
      have habs : u ∉ keys S.inUse := hi.idle u p hmw (calm _ hmw)
      have hst : step K E S (.resume u) = resume K E { S with awake := S.awake.filter fun w => w.1 ≠ u } u p := by
        simp only [step, f1, hp]; rfl
      rw [hst]
      cases p with
      | closing v l => exact absurd rfl (calm _ hmw v l)
      | pool =>
        have hs : K.safety ≠ 0 := fun hs => hi.noPool hs u hmw
        exact search_serves E hi' ⟨habs, hb, fun x => absurd x hs⟩ hE (by
          show S.inUse.length < _
          rw [hnil]; exact hcap)
      | module =>
        have hs : K.safety = 0 := Classical.byContradiction fun hs => hi.noModule hs u hmw
        have hmod : S.moduleLock = none := by
          cases hml : S.moduleLock with
          | none => rfl
          | some q =>
            obtain ⟨l, hl, _⟩ := hx hs q.1 q.2 hml
            rw [hnil] at hl
            cases hl
        rw [resume, if_neg (by rw [hL]; simp), enter]
        have hm1 : tryModule K u ({ S with awake := S.awake.filter fun w => w.1 ≠ u } : State).moduleLock = some (some (u, 1)) := by
          show tryModule K u S.moduleLock = _
          rw [tryModule, if_pos hs, hmod]
          rfl
        rw [hm1]
        simp only [owned, hnil, entryOf]
        have hi2 := inv_module hi' (some (u, 1)) (by
          intro _ v l hl
          have hl' : (v, l) ∈ S.inUse := hl
          rw [hnil] at hl'; cases hl')
        have := search_serves (t := u) E hi2 ⟨habs, hb, fun _ => ⟨1, rfl, Nat.le_refl _⟩⟩ hE (by
          show S.inUse.length < _
          rw [hnil]; exact hcap)
        simpa only [hnil] using this

/-- Sleeping threads sleep because the connections are in use, or are about to be taken by threads that have been notified. -/
theorem sleeping_only_if_busy (K : Config) (sched : List (Env × Event)) (ho : Open sched) (ha : AllOpen sched)
    (hin : K.safety = 0 → InTime sched) (t : Tid) (ht : Waits (run K init sched).1 t) (hn : ¬Notified (run K init sched).1 t) :
    K.cap ≤ (run K init sched).1.inUse.length + (run K init sched).1.awake.length := by
  have calm0 : Calm init := by intro y hy; simp [init, waiters] at hy
  obtain ⟨hw, _⟩ := run_wake sched (inv_init K) calm0 ho ha hin (.inl rfl) (by intro _ t n hn; cases hn)
  rcases hw with hw | hw
  · unfold Waits at ht
    unfold Notified at hn
    rw [hw, List.append_nil] at ht
    exact absurd ht hn
  · exact hw

/-! ## Cases -/

def E1 : Env := ⟨false, false, fun _ => 0, fun _ => true⟩
def E2 : Env := ⟨true, true, fun _ => 0, fun _ => true⟩

/-- Three threads and one connection: the one that is notified gets it. -/
example : (run ⟨1, 1⟩ init [(E0, .acquire 1), (E0, .acquire 2), (E0, .acquire 3), (E0, .release 1 0)]).1.awake = [(2, .pool)] ∧
    (run ⟨1, 1⟩ init [(E0, .acquire 1), (E0, .acquire 2), (E0, .acquire 3), (E0, .release 1 0), (E0, .resume 2)]).2 =
      [.opened 1 0, .got 1 0, .released 1 0, .closed 0, .opened 2 1, .got 2 1] := by decide +kernel

/-- The schedule that is used below. -/
def lost (K : Config) (E : Env) : State × List Obs :=
  run K init [(E0, .acquire 1), (E0, .acquire 2), (E0, .acquire 3), (E0, .release 1 0), (E, .resume 2)]

theorem history_has {H : List Obs} (h : ∀ o ∈ H, ∀ t c, o = .got t c → H.count (.got t c) ≤ H.count (.released t c)) (t : Tid) (c : Conn) :
    ¬Has H t c := by
  unfold Has
  by_cases hm : Obs.got t c ∈ H
  · have := h _ hm t c rfl
    omega
  · rw [List.count_eq_zero.2 hm]
    omega

/-- If a connection cannot be opened the notification is lost: the third thread waits, nobody has a connection, and nobody has been
notified. -/
theorem wakeup_lost_by_failure_refuted :
    ¬∀ (K : Config) (sched : List (Env × Event)), 0 < K.cap → Open sched → (∀ t c, ¬Has (run K init sched).2 t c) →
      ∀ t, Waits (run K init sched).1 t → ∃ u, Notified (run K init sched).1 u := by
  intro h
  have e : (lost ⟨1, 1⟩ E1).2 = [.opened 1 0, .got 1 0, .released 1 0, .closed 0, .failed 2] := by decide +kernel
  have nh : ∀ t c, ¬Has (lost ⟨1, 1⟩ E1).2 t c := by
    rw [e]
    apply history_has
    intro o ho t c eo
    simp only [List.mem_cons, List.not_mem_nil, or_false] at ho
    rcases ho with rfl | rfl | rfl | rfl | rfl <;> cases eo
    decide
  have e2 : (lost ⟨1, 1⟩ E1).1.awake = [] := by decide +kernel
  have e3 : (waiting 3 ((lost ⟨1, 1⟩ E1).1.awake ++ (lost ⟨1, 1⟩ E1).1.sleeping)).isSome = true := by decide +kernel
  obtain ⟨u, hu⟩ := h ⟨1, 1⟩ [(E0, .acquire 1), (E0, .acquire 2), (E0, .acquire 3), (E0, .release 1 0), (E1, .resume 2)] (by decide)
    (by
      intro p hp t
      simp only [List.mem_cons, List.not_mem_nil, or_false] at hp
      rcases hp with rfl | rfl | rfl | rfl | rfl <;> simp)
    nh 3 e3
  unfold Notified at hu
  have : (waiting u (lost ⟨1, 1⟩ E1).1.awake).isSome = true := hu
  rw [e2] at this
  cases this

/-- With a module that must not be shared the notification is lost as well if the thread that was notified runs out of time. -/
theorem wakeup_lost_by_timeout_refuted :
    ¬∀ (K : Config) (sched : List (Env × Event)), 0 < K.cap → Open sched → AllOpen sched → (∀ t c, ¬Has (run K init sched).2 t c) →
      ∀ t, Waits (run K init sched).1 t → ∃ u, Notified (run K init sched).1 u := by
  intro h
  have e : (lost ⟨0, 1⟩ E2).2 = [.opened 1 0, .got 1 0, .released 1 0, .timedOut 2] := by decide +kernel
  have nh : ∀ t c, ¬Has (lost ⟨0, 1⟩ E2).2 t c := by
    rw [e]
    apply history_has
    intro o ho t c eo
    simp only [List.mem_cons, List.not_mem_nil, or_false] at ho
    rcases ho with rfl | rfl | rfl | rfl <;> cases eo
    decide
  have e2 : (lost ⟨0, 1⟩ E2).1.awake = [] := by decide +kernel
  have e3 : (waiting 3 ((lost ⟨0, 1⟩ E2).1.awake ++ (lost ⟨0, 1⟩ E2).1.sleeping)).isSome = true := by decide +kernel
  obtain ⟨u, hu⟩ := h ⟨0, 1⟩ [(E0, .acquire 1), (E0, .acquire 2), (E0, .acquire 3), (E0, .release 1 0), (E2, .resume 2)] (by decide)
    (by
      intro p hp t
      simp only [List.mem_cons, List.not_mem_nil, or_false] at hp
      rcases hp with rfl | rfl | rfl | rfl | rfl <;> simp)
    (by
      intro p hp
      simp only [List.mem_cons, List.not_mem_nil, or_false] at hp
      rcases hp with rfl | rfl | rfl | rfl | rfl <;> rfl)
    nh 3 e3
  unfold Notified at hu
  have : (waiting u (lost ⟨0, 1⟩ E2).1.awake).isSome = true := hu
  rw [e2] at this
  cases this

/-! ## A module that must not be shared, and a connection that cannot be opened -/

/-- A thread has the lock of the module and no connection is in use. -/
structure Blocked (K : Config) (S : State) (t : Tid) : Prop where
  safety : K.safety = 0
  lock : ∃ n, S.moduleLock = some (t, n)
  none : S.inUse = []
  dead : S.dead = []
  pool : ∀ u, (u, Point.pool) ∉ waiters S

theorem blocked_enter {K S t u} (E : Env) (h : Blocked K S t) (hne : u ≠ t) :
    enter K E S u = ({ S with sleeping := S.sleeping ++ [(u, .module)] }, []) := by
  obtain ⟨n, e⟩ := h.lock
  unfold enter
  have : tryModule K u S.moduleLock = none := by
    rw [tryModule, if_pos h.safety, e, tryLock, if_neg (Ne.symm hne)]
  rw [this]

theorem blocked_sleep {K S t u} {p : Point} (h : Blocked K S t) (hp : p ≠ .pool) :
    Blocked K { S with sleeping := S.sleeping ++ [(u, p)] } t := by
  refine ⟨h.safety, h.lock, h.none, h.dead, ?_⟩
  intro v hv
  simp only [waiters, ← List.append_assoc, List.mem_append, List.mem_singleton] at hv
  rcases hv with hv | hv
  · exact h.pool v (List.mem_append.2 hv)
  · cases hv; exact hp rfl

theorem blocked_closeLoop {K S} (E : Env) (me : Tid) (n : Nat) (obs : List Obs) (h1 : S.inUse = []) (h2 : S.dead = []) :
    closeLoop K E me n S obs = (S, obs ++ [.finished me]) := by
  cases n with
  | zero => rfl
  | succ n =>
    rw [closeLoop]
    have : popitem E.pick S.inUse = none := by rw [h1]; rfl
    rw [this, h2]

theorem blocked_step {K S t} (E : Env) (e : Event) (h : Blocked K S t) (he : e.thread ≠ t) :
    Blocked K (step K E S e).1 t ∧ ∀ u c, .got u c ∉ (step K E S e).2 := by
  have sub : ∀ {a s : List (Tid × Point)}, a.Sublist S.awake → s.Sublist S.sleeping → Blocked K { S with awake := a, sleeping := s } t :=
    fun h1 h2 => ⟨h.safety, h.lock, h.none, h.dead, fun u hu => h.pool u ((h1.append h2).subset hu)⟩
  have res : ∀ {S' : State} {u p}, Blocked K S' t → (u, p) ∈ waiters S → u ≠ t →
      Blocked K (resume K E S' u p).1 t ∧ ∀ v c, .got v c ∉ (resume K E S' u p).2 := by
    intro S' u p hb hm hne
    cases p with
    | module =>
      rw [resume]
      split
      · exact ⟨hb, by simp⟩
      · rw [blocked_enter E hb hne]
        exact ⟨blocked_sleep hb (by simp), by simp⟩
    | pool => exact absurd hm (h.pool u)
    | closing v l =>
      rw [resume]
      unfold closeAgain
      have ha : attempt K E u v l true = .closed := by
        unfold attempt tryConn
        rw [if_pos hb.safety]
      rw [ha]
      simp only
      rw [blocked_closeLoop E u _ _ hb.none hb.dead]
      exact ⟨hb, by simp⟩
  unfold step
  split
  · exact ⟨h, by simp⟩
  · cases e with
    | resume u =>
      simp only
      split
      · next ha => exact res (sub List.filter_sublist (List.Sublist.refl _)) (List.mem_append_left _ (waiting_mem ha)) he
      · split
        · next ha => exact res (sub (List.Sublist.refl _) List.filter_sublist) (List.mem_append_right _ (waiting_mem ha)) he
        · exact ⟨h, by simp⟩
    | acquire u =>
      simp only
      split
      · exact ⟨h, by simp⟩
      · unfold acquire
        split
        · exact ⟨h, by simp⟩
        · have he' : u ≠ t := he
          rw [blocked_enter E h he']
          exact ⟨blocked_sleep h (by simp), by simp⟩
    | release u c =>
      simp only
      split
      · exact ⟨h, by simp⟩
      · have : release K S u c = (S, [.unknown u c]) := by
          simp [release, releaseOther, h.none, h.dead, entryOf, byConn]
        rw [this]
        exact ⟨h, by simp⟩
    | close u =>
      simp only
      split
      · exact ⟨h, by simp⟩
      · unfold close
        rw [blocked_closeLoop (S := { S with closing := true, unused := [] }) E u _ _ h.none h.dead]
        exact ⟨⟨h.safety, h.lock, h.none, h.dead, h.pool⟩, by simp⟩

theorem blocked_run {K t} (sched : List (Env × Event)) : ∀ {S}, Blocked K S t → (∀ p ∈ sched, p.2.thread ≠ t) →
    ∀ u c, .got u c ∉ (run K S sched).2 := by
  induction sched with
  | nil => intro S _ _ u c hm; simp [run] at hm
  | cons p rest ih =>
    intro S h hne u c hm
    obtain ⟨E, e⟩ := p
    obtain ⟨h1, h2⟩ := blocked_step E e h (hne _ (.head _))
    rcases List.mem_append.1 hm with hm | hm
    · exact h2 u c hm
    · exact ih h1 (fun p hp => hne p (.tail _ hp)) u c hm

theorem take_not_failed {K S t u l obs} (h : .failed u ∈ (take K S t l obs).2) : .failed u ∈ obs := by
  unfold take at h
  split at h
  · exact h
  · rcases List.mem_append.1 h with h | h
    · exact h
    · simp at h

/-- A failure changes nothing but the unused connections. -/
theorem search_failed {K S t u} (E : Env) (h : .failed u ∈ (search K E S t).2) :
    u = t ∧ ∃ un, (search K E S t).1 = { S with unused := un } := by
  unfold search at h ⊢
  cases hg : entryOf t S.unused with
  | some l =>
    rw [hg] at h
    exact absurd (take_not_failed h) (by simp)
  | none =>
    simp only [hg] at h ⊢
    by_cases h1 : S.unused.length + S.inUse.length < K.cap
    · rw [if_pos h1] at h ⊢
      by_cases h2 : E.opens = true
      · rw [if_pos h2] at h
        exact absurd (take_not_failed h) (by simp)
      · rw [if_neg h2] at h ⊢
        exact ⟨by simpa using h, S.unused, rfl⟩
    · rw [if_neg h1] at h ⊢
      cases hp : popitem E.pick S.unused with
      | some p =>
        simp only [hp] at h ⊢
        by_cases h3 : K.safety > 1
        · rw [if_pos h3] at h
          exact absurd (take_not_failed h) (by simp)
        · rw [if_neg h3] at h ⊢
          by_cases h2 : E.opens = true
          · rw [if_pos h2] at h
            exact absurd (take_not_failed h) (by simp)
          · rw [if_neg h2] at h ⊢
            exact ⟨by simpa using h, _, rfl⟩
      | none =>
        simp only [hp] at h ⊢
        split at h
        · split at h <;> simp at h
        · simp at h

theorem enter_failed {K S b w t u} (E : Env) (h : Inv K S b w) (hs : K.safety = 0) (hb : t ∉ (waiters S).map (·.1))
    (hf : .failed u ∈ (enter K E S t).2) : u = t ∧ Blocked K (enter K E S t).1 t := by
  unfold enter at hf ⊢
  cases hm : tryModule K t S.moduleLock with
  | none => rw [hm] at hf; simp at hf
  | some m =>
    simp only [hm] at hf ⊢
    obtain ⟨n, e, hall⟩ : ∃ n, m = some (t, n) ∧ ∀ v l, (v, l) ∈ S.inUse → v = t := by
      rw [tryModule, if_pos hs] at hm
      cases hml : S.moduleLock with
      | none =>
        rw [hml] at hm; cases hm
        refine ⟨1, rfl, ?_⟩
        intro v l hl
        obtain ⟨_, _, _, a⟩ := h.user v l hl
        obtain ⟨n, e, _⟩ := a hs
        rw [hml] at e; cases e
      | some p =>
        obtain ⟨o, n⟩ := p
        rw [hml, tryLock] at hm
        by_cases ho : o = t
        · rw [if_pos ho] at hm; cases hm
          refine ⟨n + 1, rfl, ?_⟩
          intro v l hl
          obtain ⟨_, _, _, a⟩ := h.user v l hl
          obtain ⟨n', e, _⟩ := a hs
          rw [hml] at e; cases e
          exact ho
        · rw [if_neg ho] at hm; cases hm
    unfold owned at hf ⊢
    cases hg : entryOf t S.inUse with
    | some l =>
      obtain ⟨u1, u2, u3, u4⟩ := h.user t l (get_mem hg)
      have hk : tryConn K t l.lock = some l.lock := by unfold tryConn; rw [if_pos hs]
      simp only [hg, hk] at hf
      simp at hf
    | none =>
      simp only [hg] at hf ⊢
      obtain ⟨rfl, un, e'⟩ := search_failed E hf
      rw [e']
      refine ⟨rfl, hs, ⟨n, e⟩, ?_, h.dead, h.noPool hs⟩
      cases hu : S.inUse with
      | nil => rfl
      | cons p rest =>
        have hmem : (p.1, p.2) ∈ S.inUse := by rw [hu]; exact .head _
        have := hall p.1 p.2 hmem
        exact absurd (mem_keys.2 ⟨p.2, by rw [← this]; exact hmem⟩) (get_none hg)

theorem closeLoop_not_failed {K me u} (E : Env) (n : Nat) : ∀ {S obs}, .failed u ∈ (closeLoop K E me n S obs).2 → .failed u ∈ obs := by
  induction n with
  | zero =>
    intro S obs h
    rcases List.mem_append.1 h with h | h
    · exact h
    · simp at h
  | succ n ih =>
    intro S obs h
    have drop : ∀ c, .failed u ∈ obs ++ [Obs.closed c] → .failed u ∈ obs := by
      intro c h
      rcases List.mem_append.1 h with h | h
      · exact h
      · simp at h
    rw [closeLoop] at h
    split at h
    · simp only at h
      split at h
      · exact drop _ (ih h)
      · exact drop _ (ih h)
      · exact h
      · exact drop _ h
    · simp only at h
      split at h
      · exact drop _ (ih h)
      · exact drop _ (ih h)
      · exact h
      · exact drop _ h
    · rcases List.mem_append.1 h with h | h
      · exact h
      · simp at h

theorem releaseEntry_not_failed {K S t v u l} (h : .failed u ∈ (releaseEntry K S t v l).2) : False := by
  unfold releaseEntry at h
  split at h
  · simp at h
  · split at h
    · simp at h
    · simp only at h
      split at h <;> simp at h

theorem release_not_failed {K S t u c} (h : .failed u ∈ (release K S t c).2) : False := by
  have other : .failed u ∈ (releaseOther K S t c).2 → False := by
    intro h
    unfold releaseOther at h
    split at h
    · exact releaseEntry_not_failed h
    · split at h
      · unfold releaseDead at h
        split at h
        · simp at h
        · simp only at h
          split at h
          · simp at h
          · split at h <;> simp at h
      · simp at h
  unfold release at h
  split at h
  · split at h
    · exact releaseEntry_not_failed h
    · exact other h
  · exact other h

theorem step_failed {K S b w u} (E : Env) (e : Event) (h : Inv K S b w) (hs : K.safety = 0) (hf : .failed u ∈ (step K E S e).2) :
    Blocked K (step K E S e).1 u := by
  have res : ∀ {S' : State} {t p}, Inv K S' b w → t ∉ (waiters S').map (·.1) → (t, p) ∈ waiters S → .failed u ∈ (resume K E S' t p).2 →
      Blocked K (resume K E S' t p).1 u := by
    intro S' t p hi hb hm hf
    cases p with
    | module =>
      rw [resume] at hf ⊢
      split at hf
      · simp at hf
      · next hl =>
        rw [if_neg hl]
        obtain ⟨rfl, hb⟩ := enter_failed E hi hs hb hf
        exact hb
    | pool => exact absurd hm (h.noPool hs t)
    | closing v l =>
      rw [resume] at hf
      unfold closeAgain at hf
      split at hf
      · exact absurd (closeLoop_not_failed E _ hf) (by simp)
      · exact absurd (closeLoop_not_failed E _ hf) (by simp)
      · exact absurd (closeLoop_not_failed E _ hf) (by simp)
      · simp at hf
  unfold step at hf ⊢
  by_cases hst : S.stuck = true
  · rw [if_pos hst] at hf; simp at hf
  rw [if_neg hst] at hf ⊢
  cases e with
  | resume t =>
    simp only at hf ⊢
    cases ha : waiting t S.awake with
    | some p =>
      simp only [ha] at hf ⊢
      have hm := waiting_mem ha
      exact res (inv_wake h List.filter_sublist (List.Sublist.refl _)) ((gone h.wait).1 hm) (List.mem_append_left _ hm) hf
    | none =>
      simp only [ha] at hf ⊢
      cases hsl : waiting t S.sleeping with
      | some p =>
        simp only [hsl] at hf ⊢
        have hm := waiting_mem hsl
        exact res (inv_wake h (List.Sublist.refl _) List.filter_sublist) ((gone h.wait).2 hm) (List.mem_append_right _ hm) hf
      | none => simp only [hsl] at hf; simp at hf
  | acquire t =>
    simp only at hf ⊢
    by_cases hw : (waiting t (S.awake ++ S.sleeping)).isSome = true
    · rw [if_pos hw] at hf; simp at hf
    · rw [if_neg hw] at hf ⊢
      unfold acquire at hf ⊢
      by_cases hc : S.closing = true
      · rw [if_pos hc] at hf; simp at hf
      · rw [if_neg hc] at hf ⊢
        have hb : t ∉ (waiters S).map (·.1) := by
          apply waiting_none
          cases hww : waiting t (S.awake ++ S.sleeping) with
          | none => exact hww
          | some p => rw [hww] at hw; simp at hw
        obtain ⟨rfl, hb⟩ := enter_failed E h hs hb hf
        exact hb
  | release t c =>
    simp only at hf
    split at hf
    · simp at hf
    · exact (release_not_failed hf).elim
  | close t =>
    simp only at hf
    split at hf
    · simp at hf
    · unfold close at hf
      have := closeLoop_not_failed E _ hf
      simp at this

/-- With a module that must not be shared: once a connection could not be opened for a thread, no other thread ever gets a
connection, unless the thread that failed does something. -/
theorem failure_blocks_module (K : Config) (hs : K.safety = 0) (sched : List (Env × Event)) (E : Env) (e : Event) (t : Tid)
    (hf : .failed t ∈ (step K E (run K init sched).1 e).2) (rest : List (Env × Event)) (hne : ∀ p ∈ rest, p.2.thread ≠ t)
    (u : Tid) (c : Conn) : .got u c ∉ (run K (step K E (run K init sched).1 e).1 rest).2 := by
  obtain ⟨b, w, g⟩ := start (K := K) False sched False.elim
  exact blocked_run rest (step_failed E e g.inv hs hf) hne u c

/-- The thread of the theorem above has no connection that it could give back. -/
example : (run ⟨0, 1⟩ init [(E1, .acquire 1), (E0, .acquire 2), (E0, .release 1 0), (E0, .resume 2), (E0, .acquire 3)]).2 =
    [.failed 1, .unknown 1 0] := by decide +kernel

end PO

end Verif.Props
