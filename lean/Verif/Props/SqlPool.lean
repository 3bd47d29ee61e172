import Verif.Spec.SqlPool

/-!
# Connections are not shared
-/

namespace Verif.Props

open Verif.OData.Pool Verif.Spec.Pool

namespace PO

/-! ## Dictionaries -/

def keys (d : List (Tid × Entry)) : List Tid := d.map (·.1)

theorem get_mem {t : Tid} {l : Entry} {d : List (Tid × Entry)} (h : entryOf t d = some l) : (t, l) ∈ d := by
  induction d with
  | nil => cases h
  | cons p d ih =>
    obtain ⟨u, m⟩ := p
    rw [entryOf] at h
    by_cases hu : u = t
    · rw [if_pos hu] at h; cases h; subst hu; exact .head _
    · rw [if_neg hu] at h; exact .tail _ (ih h)

theorem get_none {t : Tid} {d : List (Tid × Entry)} (h : entryOf t d = none) : t ∉ keys d := by
  induction d with
  | nil => simp [keys]
  | cons p d ih =>
    obtain ⟨u, m⟩ := p
    rw [entryOf] at h
    by_cases hu : u = t
    · rw [if_pos hu] at h; cases h
    · rw [if_neg hu] at h
      have := ih h
      simp only [keys, List.map_cons, List.mem_cons, not_or] at this ⊢
      exact ⟨fun e => hu e.symm, this⟩

theorem mem_del {t : Tid} {d : List (Tid × Entry)} {p : Tid × Entry} : p ∈ del t d ↔ p ∈ d ∧ p.1 ≠ t := by
  simp [del]

theorem mem_put {t : Tid} {l : Entry} {d : List (Tid × Entry)} {p : Tid × Entry} :
    p ∈ put t l d ↔ p = (t, l) ∨ (p ∈ d ∧ p.1 ≠ t) := by
  simp [put, mem_del]

theorem mem_keys {t : Tid} {d : List (Tid × Entry)} : t ∈ keys d ↔ ∃ l, (t, l) ∈ d := by
  simp [keys]

theorem unique {d : List (Tid × Entry)} (h : (keys d).Nodup) {t : Tid} {l m : Entry} (h1 : (t, l) ∈ d) (h2 : (t, m) ∈ d) : l = m := by
  induction d with
  | nil => cases h1
  | cons p d ih =>
    obtain ⟨u, k⟩ := p
    simp only [keys, List.map_cons, List.nodup_cons] at h
    simp only [List.mem_cons, Prod.mk.injEq] at h1 h2
    rcases h1 with ⟨rfl, rfl⟩ | h1
    · rcases h2 with ⟨_, rfl⟩ | h2
      · rfl
      · exact absurd (mem_keys.2 ⟨_, h2⟩) h.1
    · rcases h2 with ⟨rfl, rfl⟩ | h2
      · exact absurd (mem_keys.2 ⟨_, h1⟩) h.1
      · exact ih h.2 h1 h2

theorem get_of_mem {d : List (Tid × Entry)} (h : (keys d).Nodup) {t : Tid} {l : Entry} (h1 : (t, l) ∈ d) : entryOf t d = some l := by
  cases hg : entryOf t d with
  | none => exact absurd (mem_keys.2 ⟨_, h1⟩) (get_none hg)
  | some m => rw [unique h h1 (get_mem hg)]

theorem keys_del (t : Tid) (d : List (Tid × Entry)) : keys (del t d) = (keys d).filter (· ≠ t) := by
  induction d with
  | nil => rfl
  | cons p d ih =>
    simp only [keys, del, List.map_cons, List.filter_cons] at ih ⊢
    by_cases h : p.1 = t
    · simp only [h, ne_eq, not_true, decide_false, Bool.false_eq_true, if_false]
      exact ih
    · simp only [ne_eq, h, not_false_eq_true, decide_true, if_true, List.map_cons]
      rw [ih]

theorem nodup_del {t : Tid} {d : List (Tid × Entry)} (h : (keys d).Nodup) : (keys (del t d)).Nodup := by
  rw [keys_del]; exact h.filter _

theorem nodup_put {t : Tid} {l : Entry} {d : List (Tid × Entry)} (h : (keys d).Nodup) : (keys (put t l d)).Nodup := by
  show (t :: keys (del t d)).Nodup
  rw [List.nodup_cons]
  refine ⟨?_, nodup_del h⟩
  rw [keys_del]; simp

theorem del_absent {t : Tid} {d : List (Tid × Entry)} (h : t ∉ keys d) : del t d = d := by
  unfold del
  rw [List.filter_eq_self]
  intro p hp
  simp only [ne_eq, decide_eq_true_eq]
  intro e
  exact h (mem_keys.2 ⟨p.2, by rw [← e]; exact hp⟩)

theorem length_del {t : Tid} {d : List (Tid × Entry)} (h : (keys d).Nodup) (ht : t ∈ keys d) : (del t d).length + 1 = d.length := by
  induction d with
  | nil => simp [keys] at ht
  | cons p d ih =>
    simp only [keys, List.map_cons, List.nodup_cons, List.mem_cons] at h ht
    by_cases e : p.1 = t
    · have : t ∉ keys d := by rw [← e]; exact h.1
      have e2 : del t (p :: d) = d := by
        have := del_absent this
        unfold del at this ⊢
        rw [List.filter_cons]
        simp [e]
        simpa using this
      rw [e2]; rfl
    · have ht' : t ∈ keys d := by
        rcases ht with rfl | ht
        · exact absurd rfl e
        · exact ht
      have := ih h.2 ht'
      unfold del at this ⊢
      rw [List.filter_cons]
      simp only [ne_eq, e, not_false_eq_true, decide_true, if_true, List.length_cons] at this ⊢
      omega

theorem popitem_mem {pick : Nat → Nat} {d : List (Tid × Entry)} {p : Tid × Entry} (h : popitem pick d = some p) : p ∈ d :=
  List.mem_of_getElem? h

theorem popitem_none {pick : Nat → Nat} {d : List (Tid × Entry)} (h : popitem pick d = none) : d = [] := by
  unfold popitem at h
  cases d with
  | nil => rfl
  | cons p d =>
    rw [List.getElem?_eq_none_iff] at h
    have := Nat.mod_lt (pick (p :: d).length) (y := (p :: d).length) (by simp)
    omega

theorem byConn_mem {c : Conn} {u : Tid} {l : Entry} {d : List (Tid × Entry)} (h : byConn c d = some (u, l)) : (u, l) ∈ d ∧ l.dbc = c := by
  induction d with
  | nil => cases h
  | cons p d ih =>
    obtain ⟨v, m⟩ := p
    rw [byConn] at h
    by_cases hc : m.dbc = c
    · rw [if_pos hc] at h; cases h; exact ⟨.head _, hc⟩
    · rw [if_neg hc] at h; exact ⟨.tail _ (ih h).1, (ih h).2⟩

/-! ## The invariant -/

/-- The threads that wait. -/
def waiters (S : State) : List (Tid × Point) := S.awake ++ S.sleeping

/-- `b t c`: how often `t` has the connection `c`; `w c`: the thread that opened it. -/
structure Inv (K : Config) (S : State) (b : Tid → Conn → Nat) (w : Conn → Tid) : Prop where
  keysU : (keys S.inUse).Nodup
  keysF : (keys S.unused).Nodup
  disj : ∀ t, t ∈ keys S.inUse → t ∉ keys S.unused
  fresh : ∀ t c, S.next ≤ c → b t c = 0
  freshU : ∀ p ∈ S.inUse, p.2.dbc < S.next
  freshF : ∀ p ∈ S.unused, p.2.dbc < S.next
  one : ∀ t u c, b t c ≠ 0 → b u c ≠ 0 → t = u
  user : ∀ t l, (t, l) ∈ S.inUse → b t l.dbc = l.locked ∧ 1 ≤ l.locked ∧
    l.lock = (if K.safety = 0 then none else some (t, l.locked)) ∧
    (K.safety = 0 → ∃ n, S.moduleLock = some (t, n) ∧ l.locked ≤ n)
  free : ∀ u l, (u, l) ∈ S.unused → (∀ t, b t l.dbc = 0) ∧ l.locked = 0 ∧ l.lock = none
  apart : ∀ p ∈ S.unused, ∀ q ∈ S.unused, p.2.dbc = q.2.dbc → p = q
  opener : K.safety ≤ 1 → ∀ p, p ∈ S.inUse ∨ p ∈ S.unused → w p.2.dbc = p.1
  dead : S.dead = []
  size : S.inUse.length + S.unused.length ≤ K.cap
  wait : ((waiters S).map (·.1)).Nodup
  idle : ∀ t p, (t, p) ∈ waiters S → (∀ u l, p ≠ .closing u l) → t ∉ keys S.inUse
  noPool : K.safety = 0 → ∀ t, (t, Point.pool) ∉ waiters S
  noModule : K.safety ≠ 0 → ∀ t, (t, Point.module) ∉ waiters S

/-- One more. -/
def bump (b : Tid → Conn → Nat) (t : Tid) (c : Conn) : Tid → Conn → Nat := fun u d => if u = t ∧ d = c then b u d + 1 else b u d

theorem bump_same (b : Tid → Conn → Nat) (t : Tid) (c : Conn) : bump b t c t c = b t c + 1 := by simp [bump]

theorem bump_conn (b : Tid → Conn → Nat) (t u : Tid) {c d : Conn} (h : d ≠ c) : bump b t c u d = b u d := by simp [bump, h]

theorem bump_thread (b : Tid → Conn → Nat) {t u : Tid} (c d : Conn) (h : u ≠ t) : bump b t c u d = b u d := by simp [bump, h]

/-- One less. -/
def drop (b : Tid → Conn → Nat) (t : Tid) (c : Conn) : Tid → Conn → Nat := fun u d => if u = t ∧ d = c then b u d - 1 else b u d

theorem drop_same (b : Tid → Conn → Nat) (t : Tid) (c : Conn) : drop b t c t c = b t c - 1 := by simp [drop]

theorem drop_conn (b : Tid → Conn → Nat) (t u : Tid) {c d : Conn} (h : d ≠ c) : drop b t c u d = b u d := by simp [drop, h]

theorem drop_thread (b : Tid → Conn → Nat) {t u : Tid} (c d : Conn) (h : u ≠ t) : drop b t c u d = b u d := by simp [drop, h]

theorem drop_le (b : Tid → Conn → Nat) (t u : Tid) (c d : Conn) : drop b t c u d ≤ b u d := by
  unfold drop; split <;> omega

/-- Two entries in use have different connections. -/
theorem use_apart {K S b w} (h : Inv K S b w) {t u : Tid} {l m : Entry} (h1 : (t, l) ∈ S.inUse) (h2 : (u, m) ∈ S.inUse)
    (e : l.dbc = m.dbc) : t = u ∧ l = m := by
  obtain ⟨a1, a2, _⟩ := h.user t l h1
  obtain ⟨b1, b2, _⟩ := h.user u m h2
  have htu : t = u := by
    refine h.one t u l.dbc (by omega) ?_
    rw [e]; omega
  subst htu
  exact ⟨rfl, unique h.keysU h1 h2⟩

theorem use_free {K S b w} (h : Inv K S b w) {t u : Tid} {l m : Entry} (h1 : (t, l) ∈ S.inUse) (h2 : (u, m) ∈ S.unused) :
    l.dbc ≠ m.dbc := by
  intro e
  obtain ⟨a1, a2, _⟩ := h.user t l h1
  have := (h.free u m h2).1 t
  rw [← e] at this
  omega

/-- What an entry that is about to be taken must be like. -/
structure Loose (K : Config) (S : State) (b : Tid → Conn → Nat) (w : Conn → Tid) (t : Tid) (l : Entry) : Prop where
  absent : t ∉ keys S.inUse
  alone : t ∉ keys S.unused
  busy : t ∉ (waiters S).map (·.1)
  lock : l.lock = none
  locked : l.locked = 0
  old : l.dbc < S.next
  zero : ∀ u, b u l.dbc = 0
  apart : ∀ p ∈ S.unused, p.2.dbc ≠ l.dbc
  opener : K.safety ≤ 1 → w l.dbc = t
  module : K.safety = 0 → ∃ n, S.moduleLock = some (t, n) ∧ 1 ≤ n
  room : S.inUse.length + S.unused.length < K.cap

theorem take_inv {K S b w t l} (h : Inv K S b w) (hl : Loose K S b w t l) (obs : List Obs) :
    ∃ S', take K S t l obs = (S', obs ++ [.got t l.dbc]) ∧ Inv K S' (bump b t l.dbc) w ∧ S'.next = S.next ∧
      S'.stuck = S.stuck ∧ S'.closing = S.closing ∧ S'.sleeping = S.sleeping ∧ S'.awake = S.awake ∧ S'.unused = S.unused ∧
      (∃ m, m.dbc = l.dbc ∧ S'.inUse = put t m S.inUse) ∧ S'.moduleLock = S.moduleLock := by
  have hk : tryConn K t l.lock = some (if K.safety = 0 then none else some (t, 1)) := by
    rw [hl.lock]; unfold tryConn; split <;> rfl
  unfold take
  rw [hk]
  refine ⟨_, rfl, ?_, rfl, rfl, rfl, rfl, rfl, rfl, ⟨_, ?_, rfl⟩, rfl⟩
  · constructor
    · exact nodup_put h.keysU
    · exact h.keysF
    · intro u hu
      obtain ⟨m, hm⟩ := mem_keys.1 hu
      rcases mem_put.1 hm with e | ⟨hm, _⟩
      · cases e
        exact hl.alone
      · exact h.disj u (mem_keys.2 ⟨m, hm⟩)
    · intro u c hc
      show bump b t l.dbc u c = 0
      have ne : c ≠ l.dbc := Nat.ne_of_gt (Nat.lt_of_lt_of_le hl.old hc)
      rw [bump_conn _ _ _ ne]
      exact h.fresh u c hc
    · intro p hp
      rcases mem_put.1 hp with rfl | ⟨hp, _⟩
      · exact hl.old
      · exact h.freshU p hp
    · exact h.freshF
    · intro u v c hu hv
      by_cases hc : c = l.dbc
      · subst hc
        have key : ∀ u, bump b t l.dbc u l.dbc ≠ 0 → u = t := by
          intro u hu
          apply Classical.byContradiction
          intro ne
          rw [bump_thread _ _ _ ne] at hu
          exact hu (hl.zero u)
        rw [key u hu, key v hv]
      · rw [bump_conn _ _ _ hc] at hu hv
        exact h.one u v c hu hv
    · intro u m hm
      rcases mem_put.1 hm with e | ⟨hm, hne⟩
      · cases e
        simp only [hl.locked]
        refine ⟨?_, by omega, by simp, hl.module⟩
        rw [bump_same, hl.zero t]
      · obtain ⟨a1, a2, a3, a4⟩ := h.user u m hm
        refine ⟨?_, a2, a3, a4⟩
        rw [bump_thread _ _ _ hne]
        exact a1
    · intro u m hm
      obtain ⟨a1, a2⟩ := h.free u m hm
      refine ⟨fun v => ?_, a2⟩
      rw [bump_conn _ _ _ (hl.apart _ hm)]
      exact a1 v
    · exact h.apart
    · intro hs p hp
      rcases hp with hp | hp
      · rcases mem_put.1 hp with rfl | ⟨hp, _⟩
        · exact hl.opener hs
        · exact h.opener hs p (.inl hp)
      · exact h.opener hs p (.inr hp)
    · exact h.dead
    · have := hl.room
      show (put _ _ _).length + _ ≤ _
      simp only [put, List.length_cons, del_absent hl.absent]
      omega
    · exact h.wait
    · intro u p hu hp hk
      obtain ⟨m, hm⟩ := mem_keys.1 hk
      rcases mem_put.1 hm with e | ⟨hm, _⟩
      · cases e
        exact hl.busy (List.mem_map_of_mem (f := (·.1)) hu)
      · exact h.idle u p hu hp (mem_keys.2 ⟨m, hm⟩)
    · exact h.noPool
    · exact h.noModule
  · rfl

/-! ## What every step does -/

/-- What a step, or a schedule, from `S` leads to; `q` says that it does not close the container. -/
structure Good (K : Config) (q : Prop) (S : State) (b : Tid → Conn → Nat) (w : Conn → Tid) (r : State × List Obs)
    (b' : Tid → Conn → Nat) (w' : Conn → Tid) : Prop where
  inv : Inv K r.1 b' w'
  bal : ∀ t c, r.2.count (.got t c) + b t c = r.2.count (.released t c) + b' t c
  mono : S.next ≤ r.1.next
  keep : ∀ c, c < S.next → w' c = w c
  opens : ∀ c, c < r.1.next → c < S.next ∨ .opened (w' c) c ∈ r.2
  gots : ∀ t c, .got t c ∈ r.2 → c < r.1.next ∧ (K.safety ≤ 1 → w' c = t)
  held : q → (∀ t c, b t c ≠ 0 → ∃ l, (t, l) ∈ S.inUse ∧ l.dbc = c) → ∀ t c, b' t c ≠ 0 → ∃ l, (t, l) ∈ r.1.inUse ∧ l.dbc = c
  count : q → openings r.2 + S.inUse.length + S.unused.length = closings r.2 + r.1.inUse.length + r.1.unused.length
  fine : q → S.stuck = false → S.closing = false → r.1.stuck = false ∧ r.1.closing = false

/-- Nothing is seen, and nothing but the waiting changes. -/
theorem good_same {K q S b w S'} (h : Inv K S' b w) (e1 : S'.next = S.next) (e2 : S'.inUse = S.inUse) (e3 : S'.unused = S.unused)
    (e4 : S'.stuck = S.stuck) (e5 : S'.closing = S.closing) (o : List Obs) (ho : ∀ x ∈ o, ∀ t c, x ≠ .got t c ∧ x ≠ .released t c ∧ x ≠ .opened t c ∧ x ≠ .closed c) :
    Good K q S b w (S', o) b w := by
  have n1 : ∀ t c, o.count (.got t c) = 0 := fun t c => List.count_eq_zero.2 fun hm => (ho _ hm t c).1 rfl
  have n2 : ∀ t c, o.count (.released t c) = 0 := fun t c => List.count_eq_zero.2 fun hm => (ho _ hm t c).2.1 rfl
  have n3 : openings o = 0 := by
    unfold openings
    rw [List.countP_eq_zero]
    intro x hx
    cases x with
    | opened t c => exact absurd rfl (ho _ hx t c).2.2.1
    | _ => simp
  have n4 : closings o = 0 := by
    unfold closings
    rw [List.countP_eq_zero]
    intro x hx
    cases x with
    | closed c => exact absurd rfl (ho _ hx 0 c).2.2.2
    | _ => simp
  constructor
  · exact h
  · intro t c; rw [n1, n2]
  · exact Nat.le_of_eq e1.symm
  · intro c _; rfl
  · intro c hc; exact .inl (by rw [← e1]; exact hc)
  · intro t c hm; exact absurd rfl (ho _ hm t c).1
  · intro _ hh t c hb; rw [e2]; exact hh t c hb
  · intro _; rw [n3, n4, e2, e3]
  · intro _ a c; exact ⟨e4.trans a, e5.trans c⟩

theorem openings_append (a c : List Obs) : openings (a ++ c) = openings a + openings c := List.countP_append ..
theorem closings_append (a c : List Obs) : closings (a ++ c) = closings a + closings c := List.countP_append ..

/-- One after the other. -/
theorem Good.trans {K q S b w r b' w' r' b'' w''} (h1 : Good K q S b w r b' w') (h2 : Good K q r.1 b' w' r' b'' w'') :
    Good K q S b w (r'.1, r.2 ++ r'.2) b'' w'' := by
  constructor
  · exact h2.inv
  · intro t c
    have a := h1.bal t c
    have d := h2.bal t c
    simp only [List.count_append]
    omega
  · exact Nat.le_trans h1.mono h2.mono
  · intro c hc
    rw [h2.keep c (Nat.lt_of_lt_of_le hc h1.mono)]
    exact h1.keep c hc
  · intro c hc
    rcases h2.opens c hc with hc' | hm
    · rcases h1.opens c hc' with hc | hm
      · exact .inl hc
      · rw [h2.keep c hc']
        exact .inr (List.mem_append_left _ hm)
    · exact .inr (List.mem_append_right _ hm)
  · intro t c hm
    rcases List.mem_append.1 hm with hm | hm
    · obtain ⟨a, e⟩ := h1.gots t c hm
      refine ⟨Nat.lt_of_lt_of_le a h2.mono, fun hs => ?_⟩
      rw [h2.keep c a]
      exact e hs
    · exact h2.gots t c hm
  · intro hq hh
    exact h2.held hq (h1.held hq hh)
  · intro hq
    have a := h1.count hq
    have d := h2.count hq
    simp only [openings_append, closings_append]
    omega
  · intro hq a c
    obtain ⟨a', c'⟩ := h1.fine hq a c
    exact h2.fine hq a' c'

/-- The name of the thread that opens the next connection is written down. -/
def note (w : Conn → Tid) (c : Conn) (t : Tid) : Conn → Tid := fun d => if d = c then t else w d

theorem note_same (w : Conn → Tid) (c : Conn) (t : Tid) : note w c t c = t := by simp [note]

theorem note_other (w : Conn → Tid) {c d : Conn} (t : Tid) (h : d ≠ c) : note w c t d = w d := by simp [note, h]

/-- The invariant does not depend on who opens a connection that is still to be opened, nor on its name. -/
theorem inv_next {K S b w} (h : Inv K S b w) (t : Tid) : Inv K { S with next := S.next + 1 } b (note w S.next t) := by
  constructor
  · exact h.keysU
  · exact h.keysF
  · exact h.disj
  · intro u c hc
    exact h.fresh u c (Nat.le_of_succ_le hc)
  · intro p hp; exact Nat.lt_succ_of_lt (h.freshU p hp)
  · intro p hp; exact Nat.lt_succ_of_lt (h.freshF p hp)
  · exact h.one
  · exact h.user
  · exact h.free
  · exact h.apart
  · intro hs p hp
    have : p.2.dbc < S.next := by
      rcases hp with hp | hp
      · exact h.freshU p hp
      · exact h.freshF p hp
    rw [note_other _ _ (Nat.ne_of_lt this)]
    exact h.opener hs p hp
  · exact h.dead
  · exact h.size
  · exact h.wait
  · exact h.idle
  · exact h.noPool
  · exact h.noModule

/-- The invariant of a state with fewer entries. -/
theorem inv_fewer {K S b w} (h : Inv K S b w) {iu un : List (Tid × Entry)} (h1 : iu.Sublist S.inUse) (h2 : un.Sublist S.unused) :
    Inv K { S with inUse := iu, unused := un } b w := by
  constructor
  · exact h.keysU.sublist (h1.map _)
  · exact h.keysF.sublist (h2.map _)
  · intro t ht ht'
    exact h.disj t ((h1.map _).subset ht) ((h2.map _).subset ht')
  · exact h.fresh
  · intro p hp; exact h.freshU p (h1.subset hp)
  · intro p hp; exact h.freshF p (h2.subset hp)
  · exact h.one
  · intro u m hm; exact h.user u m (h1.subset hm)
  · intro u m hm; exact h.free u m (h2.subset hm)
  · intro p hp q hq; exact h.apart p (h2.subset hp) q (h2.subset hq)
  · intro hs p hp
    exact h.opener hs p (hp.imp (fun x => h1.subset x) (fun x => h2.subset x))
  · exact h.dead
  · have a := h1.length_le
    have c := h2.length_le
    have d := h.size
    show iu.length + un.length ≤ _
    omega
  · exact h.wait
  · intro t p ht hp hk
    exact h.idle t p ht hp ((h1.map _).subset hk)
  · exact h.noPool
  · exact h.noModule

theorem del_sublist (t : Tid) (d : List (Tid × Entry)) : (del t d).Sublist d := List.filter_sublist

theorem take_good {K q S0 b w0 S w t l} (h : Inv K S b w) (hl : Loose K S b w t l) (obs : List Obs)
    (ho : ∀ x ∈ obs, ∀ u c, x ≠ .got u c ∧ x ≠ .released u c)
    (mono : S0.next ≤ S.next) (keep : ∀ c, c < S0.next → w c = w0 c) (opens : ∀ c, c < S.next → c < S0.next ∨ .opened (w c) c ∈ obs)
    (hin : S.inUse = S0.inUse) (hst : S.stuck = S0.stuck) (hcl : S.closing = S0.closing) (hc : openings obs + S0.unused.length = closings obs + S.unused.length + 1) :
    Good K q S0 b w0 (take K S t l obs) (bump b t l.dbc) w := by
  obtain ⟨S', e, hi, e1, e2, e3, e4, e5, e6, ⟨m, em, e7⟩, e8⟩ := take_inv h hl obs
  have n1 : ∀ u c, obs.count (.got u c) = 0 := fun u c => List.count_eq_zero.2 fun hm => (ho _ hm u c).1 rfl
  have n2 : ∀ u c, obs.count (.released u c) = 0 := fun u c => List.count_eq_zero.2 fun hm => (ho _ hm u c).2 rfl
  rw [e]
  constructor
  · exact hi
  · intro u c
    simp only [List.count_append, n1, n2]
    by_cases hx : u = t ∧ c = l.dbc
    · obtain ⟨rfl, rfl⟩ := hx
      rw [bump_same]
      simp
      omega
    · have : bump b t l.dbc u c = b u c := by unfold bump; rw [if_neg hx]
      rw [this]
      have : List.count (Obs.got u c) [Obs.got t l.dbc] = 0 := by
        apply List.count_eq_zero.2
        intro hm
        simp only [List.mem_singleton, Obs.got.injEq] at hm
        exact hx hm
      rw [this]
      simp
  · show S0.next ≤ S'.next
    rw [e1]; exact mono
  · exact keep
  · intro c hlt
    have hlt' : c < S.next := by rw [← e1]; exact hlt
    exact (opens c hlt').imp id fun hm => List.mem_append_left _ hm
  · intro u c hm
    rcases List.mem_append.1 hm with hm | hm
    · exact absurd rfl (ho _ hm u c).1
    · simp only [List.mem_singleton, Obs.got.injEq] at hm
      obtain ⟨rfl, rfl⟩ := hm
      exact ⟨by rw [e1]; exact hl.old, hl.opener⟩
  · intro _ hh u c hb
    show ∃ l, (u, l) ∈ S'.inUse ∧ _
    rw [e7]
    by_cases hx : u = t ∧ c = l.dbc
    · obtain ⟨rfl, rfl⟩ := hx
      exact ⟨m, mem_put.2 (.inl rfl), em⟩
    · have e9 : bump b t l.dbc u c = b u c := by unfold bump; rw [if_neg hx]
      rw [e9] at hb
      obtain ⟨m', hm', ec⟩ := hh u c hb
      refine ⟨m', mem_put.2 (.inr ⟨by rw [hin]; exact hm', ?_⟩), ec⟩
      intro eu
      have eu' : u = t := eu
      subst eu'
      exact hl.absent (mem_keys.2 ⟨m', by rw [hin]; exact hm'⟩)
  · intro _
    show _ = _ + S'.inUse.length + S'.unused.length
    rw [e7, e6]
    rw [put, del_absent hl.absent]
    simp only [openings_append, closings_append, List.length_cons, hin]
    have a : openings [Obs.got t l.dbc] = 0 := rfl
    have c : closings [Obs.got t l.dbc] = 0 := rfl
    rw [a, c]
    omega
  · intro _ a c
    exact ⟨by rw [← a, ← hst]; exact e2, by rw [← c, ← hcl]; exact e3⟩

/-- A thread that does not wait and has no connection looks for one. -/
structure Ready (K : Config) (S : State) (t : Tid) : Prop where
  absent : t ∉ keys S.inUse
  busy : t ∉ (waiters S).map (·.1)
  module : K.safety = 0 → ∃ n, S.moduleLock = some (t, n) ∧ 1 ≤ n

theorem inv_sleep {K S b w} (h : Inv K S b w) {t : Tid} {p : Point} (hb : t ∉ (waiters S).map (·.1))
    (h0 : (∀ u l, p ≠ .closing u l) → t ∉ keys S.inUse) (h1 : p = .pool → K.safety ≠ 0) (h2 : p = .module → K.safety = 0) :
    Inv K { S with sleeping := S.sleeping ++ [(t, p)] } b w := by
  have ew : waiters { S with sleeping := S.sleeping ++ [(t, p)] } = waiters S ++ [(t, p)] := by simp [waiters]
  constructor
  · exact h.keysU
  · exact h.keysF
  · exact h.disj
  · exact h.fresh
  · exact h.freshU
  · exact h.freshF
  · exact h.one
  · exact h.user
  · exact h.free
  · exact h.apart
  · exact h.opener
  · exact h.dead
  · exact h.size
  · rw [ew, List.map_append, List.nodup_append]
    refine ⟨h.wait, by simp, ?_⟩
    intro a ha c hc
    simp only [List.map_cons, List.map_nil, List.mem_singleton] at hc
    subst hc
    intro e; subst e
    exact hb ha
  · intro u r hu
    rw [ew, List.mem_append, List.mem_singleton] at hu
    rcases hu with hu | hu
    · exact h.idle u r hu
    · cases hu
      exact h0
  · intro hs u hu
    rw [ew, List.mem_append, List.mem_singleton] at hu
    rcases hu with hu | hu
    · exact h.noPool hs u hu
    · cases hu
      exact h1 rfl hs
  · intro hs u hu
    rw [ew, List.mem_append, List.mem_singleton] at hu
    rcases hu with hu | hu
    · exact h.noModule hs u hu
    · cases hu
      exact hs (h2 rfl)

theorem nil_of_module {K S b w t} (h : Inv K S b w) (hr : Ready K S t) (hs : K.safety = 0) : S.inUse = [] := by
  cases hu : S.inUse with
  | nil => rfl
  | cons p rest =>
    obtain ⟨u, l⟩ := p
    have hm : (u, l) ∈ S.inUse := by rw [hu]; exact .head _
    obtain ⟨_, _, _, a⟩ := h.user u l hm
    obtain ⟨n, e, _⟩ := a hs
    obtain ⟨n', e', _⟩ := hr.module hs
    rw [e] at e'
    cases e'
    exact absurd (mem_keys.2 ⟨l, hm⟩) hr.absent

theorem search_good {K S b w t} (E : Env) (q : Prop) (h : Inv K S b w) (hr : Ready K S t) :
    ∃ b' w', Good K q S b w (search K E S t) b' w' := by
  unfold search
  cases hg : entryOf t S.unused with
  | some l =>
    have hm := get_mem hg
    have hi : Inv K { S with unused := del t S.unused } b w := inv_fewer h (List.Sublist.refl _) (del_sublist _ _)
    obtain ⟨f1, f2, f3⟩ := h.free t l hm
    have hd := length_del h.keysF (mem_keys.2 ⟨l, hm⟩)
    have hl : Loose K { S with unused := del t S.unused } b w t l := {
      absent := hr.absent
      alone := by
        intro hk
        obtain ⟨m, hm⟩ := mem_keys.1 hk
        exact (mem_del.1 hm).2 rfl
      busy := hr.busy
      lock := f3
      locked := f2
      old := h.freshF _ hm
      zero := f1
      apart := by
        intro p hp e
        obtain ⟨hp, hne⟩ := mem_del.1 hp
        have := h.apart p hp _ hm e
        subst this
        exact hne rfl
      opener := fun hs => h.opener hs _ (.inr hm)
      module := hr.module
      room := by
        have := h.size
        show S.inUse.length + (del t S.unused).length < _
        omega }
    refine ⟨_, _, take_good hi hl [] (by simp) (Nat.le_refl _) (fun _ _ => rfl) (fun c hc => .inl hc) rfl rfl rfl ?_⟩
    show 0 + _ = 0 + (del t S.unused).length + 1
    omega
  | none =>
    simp only
    by_cases hroom : S.unused.length + S.inUse.length < K.cap
    · rw [if_pos hroom]
      by_cases ho : E.opens = true
      · rw [if_pos ho]
        have hl : Loose K { S with next := S.next + 1 } b (note w S.next t) t ⟨S.next, none, 0⟩ := {
          absent := hr.absent
          alone := get_none hg
          busy := hr.busy
          lock := rfl
          locked := rfl
          old := Nat.lt_succ_self _
          zero := fun u => h.fresh u _ (Nat.le_refl _)
          apart := fun p hp => Nat.ne_of_lt (h.freshF p hp)
          opener := fun _ => note_same ..
          module := hr.module
          room := by
            show S.inUse.length + S.unused.length < _
            omega }
        refine ⟨_, _, take_good (inv_next h t) hl [.opened t S.next] (by simp) (Nat.le_succ _) ?_ ?_ rfl rfl rfl ?_⟩
        · intro c hc
          exact note_other _ _ (Nat.ne_of_lt hc)
        · intro c hc
          rcases Nat.lt_or_eq_of_le (Nat.le_of_lt_succ hc) with hc | hc
          · exact .inl hc
          · subst hc
            right
            rw [note_same]
            exact .head _
        · show 1 + S.unused.length = 0 + S.unused.length + 1
          omega
      · rw [if_neg ho]
        exact ⟨b, w, good_same h rfl rfl rfl rfl rfl _ (by simp)⟩
    · rw [if_neg hroom]
      cases hp : popitem E.pick S.unused with
      | some p =>
        obtain ⟨u, l⟩ := p
        have hm := popitem_mem hp
        have hi : Inv K { S with unused := del u S.unused } b w := inv_fewer h (List.Sublist.refl _) (del_sublist _ _)
        obtain ⟨f1, f2, f3⟩ := h.free u l hm
        have hd := length_del h.keysF (mem_keys.2 ⟨l, hm⟩)
        simp only
        by_cases hs : K.safety > 1
        · rw [if_pos hs]
          have hl : Loose K { S with unused := del u S.unused } b w t l := {
            absent := hr.absent
            alone := fun hk => get_none hg (((del_sublist u S.unused).map _).subset hk)
            busy := hr.busy
            lock := f3
            locked := f2
            old := h.freshF _ hm
            zero := f1
            apart := by
              intro p hp e
              obtain ⟨hp, hne⟩ := mem_del.1 hp
              have := h.apart p hp _ hm e
              subst this
              exact hne rfl
            opener := fun hs' => by omega
            module := hr.module
            room := by
              have := h.size
              show S.inUse.length + (del u S.unused).length < _
              omega }
          refine ⟨_, _, take_good hi hl [] (by simp) (Nat.le_refl _) (fun _ _ => rfl) (fun c hc => .inl hc) rfl rfl rfl ?_⟩
          show 0 + _ = 0 + (del u S.unused).length + 1
          omega
        · rw [if_neg hs]
          by_cases ho : E.opens = true
          · rw [if_pos ho]
            have hl : Loose K { S with unused := del u S.unused, next := S.next + 1 } b (note w S.next t) t { l with dbc := S.next } := {
              absent := hr.absent
              alone := fun hk => get_none hg (((del_sublist u S.unused).map _).subset hk)
              busy := hr.busy
              lock := f3
              locked := f2
              old := Nat.lt_succ_self _
              zero := fun u => h.fresh u _ (Nat.le_refl _)
              apart := fun p hp => Nat.ne_of_lt (h.freshF p (mem_del.1 hp).1)
              opener := fun _ => note_same ..
              module := hr.module
              room := by
                have := h.size
                show S.inUse.length + (del u S.unused).length < _
                omega }
            refine ⟨_, _, take_good (inv_next hi t) hl [.closed l.dbc, .opened t S.next] (by simp) (Nat.le_succ _) ?_ ?_ rfl rfl rfl ?_⟩
            · intro c hc
              exact note_other _ _ (Nat.ne_of_lt hc)
            · intro c hc
              rcases Nat.lt_or_eq_of_le (Nat.le_of_lt_succ hc) with hc | hc
              · exact .inl hc
              · subst hc
                right
                rw [note_same]
                simp
            · show 1 + S.unused.length = 1 + (del u S.unused).length + 1
              omega
          · rw [if_neg ho]
            refine ⟨b, w, ?_⟩
            constructor
            · exact hi
            · intro v c
              simp
            · exact Nat.le_refl _
            · intro _ _; rfl
            · intro c hc; exact .inl hc
            · intro v c hm'; simp at hm'
            · intro _ hh; exact hh
            · intro _
              show 0 + S.inUse.length + S.unused.length = 1 + S.inUse.length + (del u S.unused).length
              omega
            · intro _ a c; exact ⟨a, c⟩
      | none =>
        have hun := popitem_none hp
        have hs : K.safety ≠ 0 := by
          intro hs
          have := nil_of_module h hr hs
          rw [hun, this] at hroom
          simp [Config.cap, hs] at hroom
        simp only
        by_cases hlate : E.late = true
        · rw [if_pos hlate]
          have : unlockModule K t S.moduleLock = some S.moduleLock := by unfold unlockModule; rw [if_neg hs]
          rw [this]
          exact ⟨b, w, good_same h rfl rfl rfl rfl rfl _ (by simp)⟩
        · rw [if_neg hlate]
          exact ⟨b, w, good_same (S := S) (inv_sleep h hr.busy (p := .pool) (fun _ => hr.absent) (fun _ => hs) (fun e => by cases e)) rfl rfl rfl rfl rfl [] (by simp)⟩

/-- A thread that does not wait looks for its own connection. -/
structure Able (K : Config) (S : State) (t : Tid) : Prop where
  busy : t ∉ (waiters S).map (·.1)
  module : K.safety = 0 → ∃ n, S.moduleLock = some (t, n) ∧ 1 ≤ n ∧ ∀ l, (t, l) ∈ S.inUse → l.locked + 1 ≤ n

/-- The entry of a thread is written again. -/
theorem inv_put {K S b w t l} (h : Inv K S b w) (hm : (t, l) ∈ S.inUse) (m : RLock) (n : Nat) (k : RLock) (hn : 1 ≤ n)
    (hk : k = if K.safety = 0 then none else some (t, n))
    (hmod : K.safety = 0 → ∃ j, m = some (t, j) ∧ n ≤ j) :
    Inv K { S with moduleLock := m, inUse := put t { l with lock := k, locked := n } S.inUse }
      (fun u c => if u = t ∧ c = l.dbc then n else b u c) w := by
  obtain ⟨u1, u2, u3, u4⟩ := h.user t l hm
  constructor
  · exact nodup_put h.keysU
  · exact h.keysF
  · intro u hu
    obtain ⟨m', hm'⟩ := mem_keys.1 hu
    rcases mem_put.1 hm' with e | ⟨hm', _⟩
    · cases e
      exact h.disj _ (mem_keys.2 ⟨l, hm⟩)
    · exact h.disj u (mem_keys.2 ⟨m', hm'⟩)
  · intro u c hc
    have ne : c ≠ l.dbc := Nat.ne_of_gt (Nat.lt_of_lt_of_le (h.freshU _ hm) hc)
    show (if u = t ∧ c = l.dbc then n else b u c) = 0
    rw [if_neg (fun x => ne x.2)]
    exact h.fresh u c hc
  · intro p hp
    rcases mem_put.1 hp with rfl | ⟨hp, _⟩
    · exact h.freshU (t, l) hm
    · exact h.freshU p hp
  · exact h.freshF
  · intro u v c hu hv
    have key : ∀ u, (if u = t ∧ c = l.dbc then n else b u c) ≠ 0 → b u c ≠ 0 := by
      intro u hu
      by_cases hx : u = t ∧ c = l.dbc
      · rw [hx.1, hx.2]; omega
      · rw [if_neg hx] at hu; exact hu
    exact h.one u v c (key u hu) (key v hv)
  · intro u l' hl'
    rcases mem_put.1 hl' with e | ⟨hl', hne⟩
    · cases e
      exact ⟨by simp, hn, hk, hmod⟩
    · obtain ⟨a1, a2, a3, a4⟩ := h.user u l' hl'
      have hne' : u ≠ t := hne
      refine ⟨?_, a2, a3, ?_⟩
      · show (if u = t ∧ l'.dbc = l.dbc then n else b u l'.dbc) = _
        rw [if_neg (fun x => hne' x.1)]
        exact a1
      · intro hs
        obtain ⟨j, e, _⟩ := a4 hs
        obtain ⟨j', e', _⟩ := u4 hs
        rw [e] at e'
        cases e'
        exact absurd rfl hne'
  · intro u l' hl'
    obtain ⟨a1, a2⟩ := h.free u l' hl'
    refine ⟨fun v => ?_, a2⟩
    show (if v = t ∧ l'.dbc = l.dbc then n else b v l'.dbc) = 0
    rw [if_neg (fun x => use_free h hm hl' x.2.symm)]
    exact a1 v
  · exact h.apart
  · intro hs p hp
    rcases hp with hp | hp
    · rcases mem_put.1 hp with rfl | ⟨hp, _⟩
      · exact h.opener hs (t, l) (.inl hm)
      · exact h.opener hs p (.inl hp)
    · exact h.opener hs p (.inr hp)
  · exact h.dead
  · have a := h.size
    have c := length_del h.keysU (mem_keys.2 ⟨l, hm⟩)
    show (put t _ S.inUse).length + _ ≤ _
    simp only [put, List.length_cons]
    omega
  · exact h.wait
  · intro u p hu hp hk'
    obtain ⟨l', hl'⟩ := mem_keys.1 hk'
    rcases mem_put.1 hl' with e | ⟨hl', _⟩
    · cases e
      exact h.idle _ p hu hp (mem_keys.2 ⟨l, hm⟩)
    · exact h.idle u p hu hp (mem_keys.2 ⟨l', hl'⟩)
  · exact h.noPool
  · exact h.noModule

theorem put_length {t : Tid} {l m : Entry} {d : List (Tid × Entry)} (h : (keys d).Nodup) (hm : (t, l) ∈ d) :
    (put t m d).length = d.length := by
  have := length_del h (mem_keys.2 ⟨l, hm⟩)
  simp only [put, List.length_cons]
  omega

/-- Whoever is in a list is in it after an entry has been written again. -/
theorem held_put {S : State} {b b' : Tid → Conn → Nat} {t : Tid} {l m : Entry} (hk : (keys S.inUse).Nodup) (hm : (t, l) ∈ S.inUse)
    (e : m.dbc = l.dbc) (hb : ∀ u c, b' u c ≠ 0 → b u c ≠ 0 ∨ (u = t ∧ c = l.dbc))
    (hh : ∀ t c, b t c ≠ 0 → ∃ l, (t, l) ∈ S.inUse ∧ l.dbc = c) :
    ∀ u c, b' u c ≠ 0 → ∃ l, (u, l) ∈ put t m S.inUse ∧ l.dbc = c := by
  intro u c hc
  have key : (∃ l, (u, l) ∈ S.inUse ∧ l.dbc = c) := by
    rcases hb u c hc with hc | ⟨rfl, rfl⟩
    · exact hh u c hc
    · exact ⟨l, hm, rfl⟩
  obtain ⟨l', hl', ec⟩ := key
  by_cases hu : u = t
  · subst hu
    have := unique hk hm hl'
    subst this
    exact ⟨m, mem_put.2 (.inl rfl), by rw [e]; exact ec⟩
  · exact ⟨l', mem_put.2 (.inr ⟨hl', hu⟩), ec⟩

theorem owned_good {K S b w t} (E : Env) (q : Prop) (h : Inv K S b w) (ha : Able K S t) :
    ∃ b' w', Good K q S b w (owned K E S t) b' w' := by
  unfold owned
  cases hg : entryOf t S.inUse with
  | some l =>
    have hm := get_mem hg
    obtain ⟨u1, u2, u3, u4⟩ := h.user t l hm
    have hk : tryConn K t l.lock = some (if K.safety = 0 then none else some (t, l.locked + 1)) := by
      rw [u3]; unfold tryConn
      by_cases hs : K.safety = 0
      · simp [hs]
      · simp [hs, tryLock]
    simp only [hk]
    have hi := inv_put h hm S.moduleLock (l.locked + 1) _ (by omega) rfl (by
      intro hs
      obtain ⟨n, e, _, hle⟩ := ha.module hs
      exact ⟨n, e, hle l hm⟩)
    refine ⟨fun u c => if u = t ∧ c = l.dbc then l.locked + 1 else b u c, w, ?_⟩
    constructor
    · exact hi
    · intro u c
      by_cases hx : u = t ∧ c = l.dbc
      · obtain ⟨rfl, rfl⟩ := hx
        simp
        omega
      · rw [if_neg hx]
        have : List.count (Obs.got u c) [Obs.got t l.dbc] = 0 := by
          apply List.count_eq_zero.2
          intro hm
          simp only [List.mem_singleton, Obs.got.injEq] at hm
          exact hx hm
        rw [this]
        simp
    · exact Nat.le_refl _
    · intro _ _; rfl
    · intro c hc; exact .inl hc
    · intro u c hm'
      simp only [List.mem_singleton, Obs.got.injEq] at hm'
      obtain ⟨rfl, rfl⟩ := hm'
      exact ⟨h.freshU _ hm, fun hs => h.opener hs _ (.inl hm)⟩
    · intro _ hh
      refine held_put h.keysU hm rfl ?_ hh
      intro u c hc
      by_cases hx : u = t ∧ c = l.dbc
      · exact .inr hx
      · rw [if_neg hx] at hc; exact .inl hc
    · intro _
      show 0 + _ + _ = 0 + (put t _ S.inUse).length + _
      rw [put_length h.keysU hm]
    · intro _ a c; exact ⟨a, c⟩
  | none =>
    refine search_good E q h ⟨?_, ha.busy, fun hs => ?_⟩
    · intro hk
      exact get_none hg hk
    · obtain ⟨n, e, hn, _⟩ := ha.module hs
      exact ⟨n, e, hn⟩

/-- Another lock of the module. -/
theorem inv_module {K S b w} (h : Inv K S b w) (m : RLock)
    (hm : K.safety = 0 → ∀ t l, (t, l) ∈ S.inUse → ∃ n, m = some (t, n) ∧ l.locked ≤ n) : Inv K { S with moduleLock := m } b w := by
  constructor
  · exact h.keysU
  · exact h.keysF
  · exact h.disj
  · exact h.fresh
  · exact h.freshU
  · exact h.freshF
  · exact h.one
  · intro t l hl
    obtain ⟨a1, a2, a3, _⟩ := h.user t l hl
    exact ⟨a1, a2, a3, fun hs => hm hs t l hl⟩
  · exact h.free
  · exact h.apart
  · exact h.opener
  · exact h.dead
  · exact h.size
  · exact h.wait
  · exact h.idle
  · exact h.noPool
  · exact h.noModule

theorem Good.from {K q S S0 b w r b' w'} (h : Good K q S b w r b' w') (e1 : S.next = S0.next) (e2 : S.inUse = S0.inUse)
    (e3 : S.unused = S0.unused) (e4 : S.stuck = S0.stuck) (e5 : S.closing = S0.closing) : Good K q S0 b w r b' w' := by
  constructor
  · exact h.inv
  · exact h.bal
  · rw [← e1]; exact h.mono
  · rw [← e1]; exact h.keep
  · rw [← e1]; exact h.opens
  · exact h.gots
  · rw [← e2]; exact h.held
  · rw [← e2, ← e3]; exact h.count
  · rw [← e4, ← e5]; exact h.fine

theorem enter_good {K S b w t} (E : Env) (q : Prop) (h : Inv K S b w) (hb : t ∉ (waiters S).map (·.1)) :
    ∃ b' w', Good K q S b w (enter K E S t) b' w' := by
  unfold enter
  cases hm : tryModule K t S.moduleLock with
  | none =>
    have hs : K.safety = 0 := by
      apply Classical.byContradiction
      intro hs
      rw [tryModule, if_neg hs] at hm
      cases hm
    have hn : t ∉ keys S.inUse := by
      intro hk
      obtain ⟨l, hl⟩ := mem_keys.1 hk
      obtain ⟨_, _, _, a⟩ := h.user t l hl
      obtain ⟨n, e, _⟩ := a hs
      rw [tryModule, if_pos hs, e, tryLock, if_pos rfl] at hm
      cases hm
    exact ⟨b, w, good_same (S := S) (inv_sleep h hb (p := .module) (fun _ => hn) (fun e => by cases e) (fun _ => hs)) rfl rfl rfl rfl rfl [] (by simp)⟩
  | some m =>
    have key : K.safety = 0 → ∃ n, m = some (t, n + 1) ∧ ∀ u l, (u, l) ∈ S.inUse → u = t ∧ l.locked ≤ n := by
      intro hs
      rw [tryModule, if_pos hs] at hm
      cases hml : S.moduleLock with
      | none =>
        rw [hml] at hm
        cases hm
        refine ⟨0, rfl, ?_⟩
        intro u l hl
        obtain ⟨_, _, _, a⟩ := h.user u l hl
        obtain ⟨n, e, _⟩ := a hs
        rw [hml] at e
        cases e
      | some on =>
        obtain ⟨o, n⟩ := on
        rw [hml, tryLock] at hm
        by_cases ho : o = t
        · rw [if_pos ho] at hm
          cases hm
          refine ⟨n, rfl, ?_⟩
          intro u l hl
          obtain ⟨_, _, _, a⟩ := h.user u l hl
          obtain ⟨n', e, hle⟩ := a hs
          rw [hml] at e
          cases e
          exact ⟨ho, hle⟩
        · rw [if_neg ho] at hm
          cases hm
    have hi : Inv K { S with moduleLock := m } b w := by
      apply inv_module h
      intro hs u l hl
      obtain ⟨n, e, hn⟩ := key hs
      obtain ⟨rfl, hle⟩ := hn u l hl
      exact ⟨n + 1, e, by omega⟩
    obtain ⟨b', w', hg⟩ := owned_good E q hi (t := t) ⟨hb, by
      intro hs
      obtain ⟨n, e, hn⟩ := key hs
      exact ⟨n + 1, e, by omega, fun l hl => Nat.succ_le_succ (hn t l hl).2⟩⟩
    exact ⟨b', w', hg.from rfl rfl rfl rfl rfl⟩

theorem acquire_good {K S b w t} (E : Env) (q : Prop) (h : Inv K S b w) (hb : t ∉ (waiters S).map (·.1)) :
    ∃ b' w', Good K q S b w (acquire K E S t) b' w' := by
  unfold acquire
  split
  · exact ⟨b, w, good_same h rfl rfl rfl rfl rfl _ (by simp)⟩
  · exact enter_good E q h hb

/-- Which threads wait, and where, does not change if one is notified. -/
theorem mem_notify (S : State) (x : Tid × Point) : x ∈ waiters (notify S) ↔ x ∈ waiters S := by
  unfold notify waiters
  split
  · rfl
  · next e => simp [e]

theorem waiters_notify (S : State) : waiters (notify S) = waiters S := by
  unfold notify waiters
  split
  · rfl
  · next e => simp [e]

theorem inv_notify {K S b w} (h : Inv K S b w) : Inv K (notify S) b w := by
  have e : ∀ {α} (f : State → α), (∀ S a s, f { S with sleeping := s, awake := a } = f S) → f (notify S) = f S := by
    intro α f hf
    unfold notify
    split
    · rfl
    · exact hf ..
  have e1 := e State.inUse (fun _ _ _ => rfl)
  have e2 := e State.unused (fun _ _ _ => rfl)
  have e3 := e State.next (fun _ _ _ => rfl)
  have e4 := e State.moduleLock (fun _ _ _ => rfl)
  have e5 := e State.dead (fun _ _ _ => rfl)
  constructor
  · rw [e1]; exact h.keysU
  · rw [e2]; exact h.keysF
  · rw [e1, e2]; exact h.disj
  · rw [e3]; exact h.fresh
  · rw [e1, e3]; exact h.freshU
  · rw [e2, e3]; exact h.freshF
  · exact h.one
  · rw [e1, e4]; exact h.user
  · rw [e2]; exact h.free
  · rw [e2]; exact h.apart
  · rw [e1, e2]; exact h.opener
  · rw [e5]; exact h.dead
  · rw [e1, e2]; exact h.size
  · rw [waiters_notify]; exact h.wait
  · rw [waiters_notify, e1]; exact h.idle
  · rw [waiters_notify]; exact h.noPool
  · rw [waiters_notify]; exact h.noModule

theorem notify_fields (S : State) : (notify S).inUse = S.inUse ∧ (notify S).unused = S.unused ∧ (notify S).next = S.next ∧
    (notify S).moduleLock = S.moduleLock ∧ (notify S).closing = S.closing ∧ (notify S).stuck = S.stuck := by
  unfold notify
  split <;> exact ⟨rfl, rfl, rfl, rfl, rfl, rfl⟩

/-- The entry of a thread goes to the unused ones. -/
theorem inv_free {K S b w t l} (h : Inv K S b w) (hm : (t, l) ∈ S.inUse) (h1 : l.locked = 1) (m : RLock) :
    Inv K { S with moduleLock := m, inUse := del t S.inUse, unused := put t { l with lock := none, locked := 0 } S.unused }
      (drop b t l.dbc) w := by
  obtain ⟨u1, u2, u3, u4⟩ := h.user t l hm
  have zero : ∀ u, drop b t l.dbc u l.dbc = 0 := by
    intro u
    by_cases hu : u = t
    · subst hu; rw [drop_same]; omega
    · rw [drop_thread _ _ _ hu]
      apply Classical.byContradiction
      intro hne
      exact hu (h.one u t l.dbc hne (by omega))
  constructor
  · exact nodup_del h.keysU
  · exact nodup_put h.keysF
  · intro u hu hu'
    obtain ⟨m1, hm1⟩ := mem_keys.1 hu
    obtain ⟨hm1, hne⟩ := mem_del.1 hm1
    obtain ⟨m2, hm2⟩ := mem_keys.1 hu'
    rcases mem_put.1 hm2 with e | ⟨hm2, _⟩
    · cases e
      exact hne rfl
    · exact h.disj u (mem_keys.2 ⟨m1, hm1⟩) (mem_keys.2 ⟨m2, hm2⟩)
  · intro u c hc
    have := drop_le b t u l.dbc c
    have e := h.fresh u c hc
    omega
  · intro p hp; exact h.freshU p (mem_del.1 hp).1
  · intro p hp
    rcases mem_put.1 hp with rfl | ⟨hp, _⟩
    · exact h.freshU (t, l) hm
    · exact h.freshF p hp
  · intro u v c hu hv
    have a := drop_le b t u l.dbc c
    have d := drop_le b t v l.dbc c
    exact h.one u v c (by omega) (by omega)
  · intro u m' hm'
    obtain ⟨hm', hne⟩ := mem_del.1 hm'
    have hne' : u ≠ t := hne
    obtain ⟨a1, a2, a3, a4⟩ := h.user u m' hm'
    refine ⟨?_, a2, a3, ?_⟩
    · rw [drop_thread _ _ _ hne']; exact a1
    · intro hs
      obtain ⟨j, e, _⟩ := a4 hs
      obtain ⟨j', e', _⟩ := u4 hs
      rw [e] at e'
      cases e'
      exact absurd rfl hne'
  · intro u m' hm'
    rcases mem_put.1 hm' with e | ⟨hm', _⟩
    · cases e
      exact ⟨zero, rfl, rfl⟩
    · obtain ⟨a1, a2⟩ := h.free u m' hm'
      refine ⟨fun v => ?_, a2⟩
      have := drop_le b t v l.dbc m'.dbc
      have := a1 v
      omega
  · intro p hp q hq e
    rcases mem_put.1 hp with rfl | ⟨hp, _⟩
    · rcases mem_put.1 hq with rfl | ⟨hq, _⟩
      · rfl
      · exact absurd e (use_free (l := l) h hm hq)
    · rcases mem_put.1 hq with rfl | ⟨hq, _⟩
      · exact absurd e.symm (use_free (l := l) h hm hp)
      · exact h.apart p hp q hq e
  · intro hs p hp
    rcases hp with hp | hp
    · exact h.opener hs p (.inl (mem_del.1 hp).1)
    · rcases mem_put.1 hp with rfl | ⟨hp, _⟩
      · exact h.opener hs (t, l) (.inl hm)
      · exact h.opener hs p (.inr hp)
  · exact h.dead
  · have a := h.size
    have c := length_del h.keysU (mem_keys.2 ⟨l, hm⟩)
    have d := (del_sublist t S.unused).length_le
    show (del t S.inUse).length + (put t _ S.unused).length ≤ _
    simp only [put, List.length_cons]
    omega
  · exact h.wait
  · intro u p hu hp hk
    obtain ⟨m', hm'⟩ := mem_keys.1 hk
    exact h.idle u p hu hp (mem_keys.2 ⟨m', (mem_del.1 hm').1⟩)
  · exact h.noPool
  · exact h.noModule

/-- The counts after a release. -/
theorem bal_released (b : Tid → Conn → Nat) (t : Tid) (c : Conn) (hb : 1 ≤ b t c) (u : Tid) (d : Conn) :
    [Obs.released t c].count (.got u d) + b u d = [Obs.released t c].count (.released u d) + drop b t c u d := by
  by_cases hx : u = t ∧ d = c
  · obtain ⟨rfl, rfl⟩ := hx
    rw [drop_same]
    simp
    omega
  · have : drop b t c u d = b u d := by unfold drop; rw [if_neg hx]
    rw [this]
    have : List.count (Obs.released u d) [Obs.released t c] = 0 := by
      apply List.count_eq_zero.2
      intro hm
      simp only [List.mem_singleton, Obs.released.injEq] at hm
      exact hx hm
    rw [this]
    simp

/-- Nobody can give back the connection of another thread. -/
theorem foreign {K S b w t u l} (h : Inv K S b w) (hm : (u, l) ∈ S.inUse) (hne : t ≠ u) :
    ∃ S', releaseEntry K S t u l = (S', [.runtimeError t]) ∧ (S' = S ∨ S' = { S with inUse := put u l S.inUse }) := by
  obtain ⟨u1, u2, u3, u4⟩ := h.user u l hm
  unfold releaseEntry
  by_cases hs : K.safety = 0
  · obtain ⟨n, e, hn⟩ := u4 hs
    have e1 : unlockConn K t l.lock = some l.lock := by unfold unlockConn; rw [if_pos hs]
    have e2 : unlockModule K t S.moduleLock = none := by
      unfold unlockModule
      rw [if_pos hs, e, unlock, if_neg (Ne.symm hne)]
    rw [e1]
    simp only [e2]
    exact ⟨_, rfl, .inr rfl⟩
  · have e1 : unlockConn K t l.lock = none := by
      unfold unlockConn
      rw [if_neg hs, u3, if_neg hs, unlock, if_neg (Ne.symm hne)]
    rw [e1]
    exact ⟨_, rfl, .inl rfl⟩

/-- What a thread does that gives back its own connection. -/
theorem own {K S b w t l} (h : Inv K S b w) (hm : (t, l) ∈ S.inUse) :
    ∃ m k, (K.safety = 0 → 1 < l.locked → ∃ j, m = some (t, j) ∧ l.locked - 1 ≤ j) ∧
      (K.safety = 0 → ∀ n, S.moduleLock = some (t, n) → m = if n ≤ 1 then none else some (t, n - 1)) ∧
      k = (if K.safety = 0 ∨ l.locked = 1 then none else some (t, l.locked - 1)) ∧
      releaseEntry K S t t l = (if l.locked = 1 then
        (notify { S with moduleLock := m, inUse := del t S.inUse, unused := put t { l with lock := none, locked := 0 } S.unused }, [.released t l.dbc])
      else ({ S with moduleLock := m, inUse := put t { l with lock := k, locked := l.locked - 1 } S.inUse }, [.released t l.dbc])) := by
  obtain ⟨u1, u2, u3, u4⟩ := h.user t l hm
  have em : ∃ m, unlockModule K t S.moduleLock = some m ∧ (K.safety = 0 → 1 < l.locked → ∃ j, m = some (t, j) ∧ l.locked - 1 ≤ j) ∧
      (K.safety = 0 → ∀ n, S.moduleLock = some (t, n) → m = if n ≤ 1 then none else some (t, n - 1)) := by
    unfold unlockModule
    by_cases hs : K.safety = 0
    · obtain ⟨n, e, hn⟩ := u4 hs
      rw [if_pos hs, e, unlock, if_pos rfl]
      refine ⟨_, rfl, ?_, ?_⟩
      · intro _ h1
        rw [if_neg (by omega)]
        exact ⟨n - 1, rfl, by omega⟩
      · intro _ n' h1
        cases h1
        rfl
    · rw [if_neg hs]
      exact ⟨_, rfl, fun x => absurd x hs, fun x => absurd x hs⟩
  obtain ⟨m, em, hm1, hm2⟩ := em
  have ek : unlockConn K t l.lock = some (if K.safety = 0 ∨ l.locked = 1 then none else some (t, l.locked - 1)) := by
    unfold unlockConn
    by_cases hs : K.safety = 0
    · simp [hs, u3]
    · rw [if_neg hs, u3, if_neg hs, unlock, if_pos rfl]
      by_cases h1 : l.locked = 1
      · simp [h1]
      · simp only [hs, h1, or_self, if_false]
        rw [if_neg (by omega)]
  refine ⟨m, _, hm1, hm2, rfl, ?_⟩
  unfold releaseEntry
  simp only [ek, em]
  by_cases h1 : l.locked = 1
  · simp [h1]
  · rw [if_neg h1, if_neg (by omega)]

theorem releaseEntry_good {K S b w t u l} (q : Prop) (h : Inv K S b w) (hm : (u, l) ∈ S.inUse) :
    ∃ b' w', Good K q S b w (releaseEntry K S t u l) b' w' := by
  obtain ⟨u1, u2, u3, u4⟩ := h.user u l hm
  by_cases hne : t = u
  · subst hne
    obtain ⟨m, k, hm1, _, ek, e⟩ := own h hm
    rw [e]
    by_cases h1 : l.locked = 1
    · rw [if_pos h1]
      have hi := inv_free h hm h1 m
      obtain ⟨n1, n2, n3, _, n6, n5⟩ := notify_fields { S with moduleLock := m, inUse := del t S.inUse, unused := put t { l with lock := none, locked := 0 } S.unused }
      refine ⟨drop b t l.dbc, w, ?_⟩
      constructor
      · exact inv_notify hi
      · exact bal_released b t l.dbc (by omega)
      · show S.next ≤ State.next (notify _)
        rw [n3]
        exact Nat.le_refl _
      · intro _ _; rfl
      · intro c hc
        rw [n3] at hc
        exact .inl hc
      · intro v c hm'; simp at hm'
      · intro _ hh v c hc
        rw [n1]
        have a := drop_le b t v l.dbc c
        obtain ⟨l', hl', ec⟩ := hh v c (by omega)
        refine ⟨l', mem_del.2 ⟨hl', ?_⟩, ec⟩
        intro ev
        have ev' : v = t := ev
        subst ev'
        have := unique h.keysU hm hl'
        subst this
        subst ec
        rw [drop_same] at hc
        omega
      · intro _
        rw [n1, n2]
        have a := length_del h.keysU (mem_keys.2 ⟨l, hm⟩)
        show 0 + S.inUse.length + S.unused.length = 0 + (del t S.inUse).length + (put t _ S.unused).length
        rw [put, del_absent (h.disj t (mem_keys.2 ⟨l, hm⟩)), List.length_cons]
        omega
      · intro _ a c
        rw [n5, n6]
        exact ⟨a, c⟩
    · rw [if_neg h1]
      have hi := inv_put h hm m (l.locked - 1) k (by omega) (by simp [ek, h1]) (fun hs => hm1 hs (by omega))
      refine ⟨drop b t l.dbc, w, ?_⟩
      have eb : drop b t l.dbc = (fun u c => if u = t ∧ c = l.dbc then l.locked - 1 else b u c) := by
        funext u c
        unfold drop
        by_cases hx : u = t ∧ c = l.dbc
        · rw [if_pos hx, if_pos hx, hx.1, hx.2, u1]
        · rw [if_neg hx, if_neg hx]
      constructor
      · rw [eb]; exact hi
      · exact bal_released b t l.dbc (by omega)
      · exact Nat.le_refl _
      · intro _ _; rfl
      · intro c hc; exact .inl hc
      · intro v c hm'; simp at hm'
      · intro _ hh
        refine held_put h.keysU hm rfl ?_ hh
        intro v c hc
        have a := drop_le b t v l.dbc c
        exact .inl (by omega)
      · intro _
        show 0 + _ + _ = 0 + (put t _ S.inUse).length + _
        rw [put_length h.keysU hm]
      · intro _ a c; exact ⟨a, c⟩
  · obtain ⟨S', e, he⟩ := foreign h hm hne
    rw [e]
    rcases he with rfl | rfl
    · exact ⟨b, w, good_same h rfl rfl rfl rfl rfl _ (by simp)⟩
    · have hi := inv_put h hm S.moduleLock l.locked l.lock u2 u3 (fun hs => by
        obtain ⟨n, e, hn⟩ := u4 hs
        exact ⟨n, e, hn⟩)
      have eb : (fun v c => if v = u ∧ c = l.dbc then l.locked else b v c) = b := by
        funext v c
        by_cases hx : v = u ∧ c = l.dbc
        · rw [if_pos hx, hx.1, hx.2, u1]
        · rw [if_neg hx]
      rw [eb] at hi
      refine ⟨b, w, ?_⟩
      constructor
      · exact hi
      · intro v c; simp
      · exact Nat.le_refl _
      · intro _ _; rfl
      · intro c hc; exact .inl hc
      · intro v c hm'; simp at hm'
      · intro _ hh
        exact held_put h.keysU hm rfl (fun v c hc => .inl hc) hh
      · intro _
        show 0 + _ + _ = 0 + (put u _ S.inUse).length + _
        rw [put_length h.keysU hm]
      · intro _ a c; exact ⟨a, c⟩

theorem releaseOther_good {K S b w t c} (q : Prop) (h : Inv K S b w) : ∃ b' w', Good K q S b w (releaseOther K S t c) b' w' := by
  unfold releaseOther
  cases hc : byConn c S.inUse with
  | some p =>
    obtain ⟨u, l⟩ := p
    exact releaseEntry_good q h (byConn_mem hc).1
  | none =>
    rw [h.dead]
    exact ⟨b, w, good_same h rfl rfl rfl rfl rfl _ (by simp)⟩

theorem release_good {K S b w t c} (q : Prop) (h : Inv K S b w) : ∃ b' w', Good K q S b w (release K S t c) b' w' := by
  unfold release
  cases hg : entryOf t S.inUse with
  | some l =>
    simp only
    split
    · exact releaseEntry_good q h (get_mem hg)
    · exact releaseOther_good q h
  | none => exact releaseOther_good q h

theorem closeLoop_inv {K b w me} (E : Env) (n : Nat) : ∀ {S : State} (obs : List Obs), Inv K S b w → me ∉ (waiters S).map (·.1) →
    Inv K (closeLoop K E me n S obs).1 b w ∧ (closeLoop K E me n S obs).1.next = S.next ∧
      ∀ x ∈ (closeLoop K E me n S obs).2, x ∈ obs ∨ (∃ c, x = .closed c) ∨ x = .finished me := by
  have last : ∀ (obs : List Obs), ∀ x ∈ obs ++ [Obs.finished me], x ∈ obs ∨ (∃ c, x = .closed c) ∨ x = .finished me := by
    intro obs x hx
    rcases List.mem_append.1 hx with hx | hx
    · exact .inl hx
    · exact .inr (.inr (List.mem_singleton.1 hx))
  induction n with
  | zero =>
    intro S obs h _
    exact ⟨h, rfl, last obs⟩
  | succ n ih =>
    intro S obs h hb
    rw [closeLoop]
    cases hp : popitem E.pick S.inUse with
    | none =>
      have hd := h.dead
      split
      · next e => cases e
      · next e => rw [hd] at e; cases e
      · exact ⟨h, rfl, last obs⟩
    | some p =>
      obtain ⟨u, l⟩ := p
      have hi : Inv K { S with inUse := del u S.inUse } b w := inv_fewer h (del_sublist _ _) (List.Sublist.refl _)
      have go := ih (S := { S with inUse := del u S.inUse }) (obs ++ [.closed l.dbc]) hi hb
      have go' : ∀ x ∈ (closeLoop K E me n { S with inUse := del u S.inUse } (obs ++ [.closed l.dbc])).2,
          x ∈ obs ∨ (∃ c, x = .closed c) ∨ x = .finished me := by
        intro x hx
        rcases go.2.2 x hx with hx | hx
        · rcases List.mem_append.1 hx with hx | hx
          · exact .inl hx
          · exact .inr (.inl ⟨_, List.mem_singleton.1 hx⟩)
        · exact .inr hx
      simp only
      cases attempt K E me u l false with
      | closed => exact ⟨go.1, go.2.1, go'⟩
      | left => exact ⟨go.1, go.2.1, go'⟩
      | wait =>
        refine ⟨?_, rfl, fun x hx => .inl hx⟩
        exact inv_sleep hi hb (p := .closing u l) (fun e => absurd rfl (e u l)) (fun e => by cases e) (fun e => by cases e)
      | loop =>
        refine ⟨?_, rfl, ?_⟩
        rotate_left
        · intro x hx
          rcases List.mem_append.1 hx with hx | hx
          · exact .inl hx
          · exact .inr (.inl ⟨_, List.mem_singleton.1 hx⟩)
        exact ⟨hi.keysU, hi.keysF, hi.disj, hi.fresh, hi.freshU, hi.freshF, hi.one, hi.user, hi.free, hi.apart, hi.opener, hi.dead, hi.size,
          hi.wait, hi.idle, hi.noPool, hi.noModule⟩

theorem good_closed {K S b w S'} (h : Inv K S' b w) (e : S'.next = S.next) (o : List Obs)
    (ho : ∀ x ∈ o, (∃ c, x = .closed c) ∨ ∃ t, x = .finished t) : Good K False S b w (S', o) b w := by
  have n1 : ∀ t c, o.count (.got t c) = 0 := by
    intro t c
    apply List.count_eq_zero.2
    intro hm
    rcases ho _ hm with ⟨c, e⟩ | ⟨t, e⟩ <;> cases e
  have n2 : ∀ t c, o.count (.released t c) = 0 := by
    intro t c
    apply List.count_eq_zero.2
    intro hm
    rcases ho _ hm with ⟨c, e⟩ | ⟨t, e⟩ <;> cases e
  constructor
  · exact h
  · intro t c; rw [n1, n2]
  · exact Nat.le_of_eq e.symm
  · intro _ _; rfl
  · intro c hc
    rw [e] at hc
    exact .inl hc
  · intro t c hm
    rcases ho _ hm with ⟨c, e⟩ | ⟨t, e⟩ <;> cases e
  · exact False.elim
  · exact False.elim
  · exact False.elim

theorem closeLoop_good {K S0 S b w me} (E : Env) (n : Nat) (obs : List Obs) (h : Inv K S b w) (hb : me ∉ (waiters S).map (·.1))
    (e : S.next = S0.next) (ho : ∀ x ∈ obs, ∃ c, x = .closed c) : Good K False S0 b w (closeLoop K E me n S obs) b w := by
  obtain ⟨h1, h2, h3⟩ := closeLoop_inv E n obs h hb
  refine good_closed h1 (by rw [h2, e]) _ ?_
  intro x hx
  rcases h3 x hx with hx | hx | hx
  · exact .inl (ho x hx)
  · exact .inl hx
  · exact .inr ⟨me, hx⟩

/-- `closing` is set. -/
theorem inv_closing {K S b w} (h : Inv K S b w) : Inv K { S with closing := true, unused := [] } b w := by
  have hi := inv_fewer h (List.Sublist.refl _) (List.nil_sublist S.unused)
  exact ⟨hi.keysU, hi.keysF, hi.disj, hi.fresh, hi.freshU, hi.freshF, hi.one, hi.user, hi.free, hi.apart, hi.opener, hi.dead, hi.size,
    hi.wait, hi.idle, hi.noPool, hi.noModule⟩

theorem close_good {K S b w me} (E : Env) (h : Inv K S b w) (hb : me ∉ (waiters S).map (·.1)) :
    Good K False S b w (close K E S me) b w := by
  unfold close
  refine closeLoop_good E _ _ (inv_closing h) hb rfl ?_
  intro x hx
  obtain ⟨p, _, rfl⟩ := List.mem_map.1 hx
  exact ⟨_, rfl⟩

theorem closeAgain_good {K S b w me u l} (E : Env) (h : Inv K S b w) (hb : me ∉ (waiters S).map (·.1)) :
    Good K False S b w (closeAgain K E S me u l) b w := by
  unfold closeAgain
  split
  · exact closeLoop_good E _ _ h hb rfl (by simp)
  · exact closeLoop_good E _ _ h hb rfl (by simp)
  · exact closeLoop_good E _ _ h hb rfl (by simp)
  · refine good_closed (S := S) (S' := { S with stuck := true }) ?_ rfl [.closed l.dbc] (by simp)
    exact ⟨h.keysU, h.keysF, h.disj, h.fresh, h.freshU, h.freshF, h.one, h.user, h.free, h.apart, h.opener, h.dead, h.size,
      h.wait, h.idle, h.noPool, h.noModule⟩

theorem waiting_mem {t : Tid} {p : Point} {d : List (Tid × Point)} (h : waiting t d = some p) : (t, p) ∈ d := by
  induction d with
  | nil => cases h
  | cons x d ih =>
    obtain ⟨u, r⟩ := x
    rw [waiting] at h
    by_cases e : u = t
    · rw [if_pos e] at h; cases h; subst e; exact .head _
    · rw [if_neg e] at h; exact .tail _ (ih h)

theorem waiting_none {t : Tid} {d : List (Tid × Point)} (h : waiting t d = none) : t ∉ d.map (·.1) := by
  induction d with
  | nil => simp
  | cons x d ih =>
    obtain ⟨u, r⟩ := x
    rw [waiting] at h
    by_cases e : u = t
    · rw [if_pos e] at h; cases h
    · rw [if_neg e] at h
      intro hm
      rcases List.mem_cons.1 hm with hm | hm
      · exact e hm.symm
      · exact ih h hm

/-- Fewer wait. -/
theorem inv_wake {K S b w} (h : Inv K S b w) {a s : List (Tid × Point)} (h1 : a.Sublist S.awake) (h2 : s.Sublist S.sleeping) :
    Inv K { S with awake := a, sleeping := s } b w := by
  have hw : (waiters { S with awake := a, sleeping := s }).Sublist (waiters S) := h1.append h2
  exact ⟨h.keysU, h.keysF, h.disj, h.fresh, h.freshU, h.freshF, h.one, h.user, h.free, h.apart, h.opener, h.dead, h.size,
    h.wait.sublist (hw.map _), fun t p ht => h.idle t p (hw.subset ht), fun hs t ht => h.noPool hs t (hw.subset ht),
    fun hs t ht => h.noModule hs t (hw.subset ht)⟩

/-- Not a state of `close`. -/
def Calm (S : State) : Prop := ∀ x ∈ waiters S, ∀ u l, x.2 ≠ .closing u l

theorem Good.weaken {K q S b w r b' w'} (h : Good K False S b w r b' w') (hq : ¬q) : Good K q S b w r b' w' :=
  ⟨h.inv, h.bal, h.mono, h.keep, h.opens, h.gots, fun x => absurd x hq, fun x => absurd x hq, fun x => absurd x hq⟩

theorem resume_good {K S b w t p} (E : Env) (q : Prop) (h : Inv K S b w) (hb : t ∉ (waiters S).map (·.1))
    (h1 : p = .pool → t ∉ keys S.inUse ∧ K.safety ≠ 0) (h2 : ∀ u l, p = .closing u l → ¬q) :
    ∃ b' w', Good K q S b w (resume K E S t p) b' w' := by
  cases p with
  | module =>
    rw [resume]
    split
    · exact ⟨b, w, good_same h rfl rfl rfl rfl rfl _ (by simp)⟩
    · exact enter_good E q h hb
  | pool =>
    rw [resume]
    obtain ⟨a, hs⟩ := h1 rfl
    exact search_good E q h ⟨a, hb, fun x => absurd x hs⟩
  | closing u l =>
    rw [resume]
    exact ⟨b, w, (closeAgain_good E h hb).weaken (h2 u l rfl)⟩

/-- Whoever goes on does not wait any more. -/
theorem gone {a s : List (Tid × Point)} {t : Tid} {p : Point} (hn : ((a ++ s).map (·.1)).Nodup) :
    ((t, p) ∈ a → t ∉ ((a.filter fun w => w.1 ≠ t) ++ s).map (·.1)) ∧
      ((t, p) ∈ s → t ∉ (a ++ s.filter fun w => w.1 ≠ t).map (·.1)) := by
  rw [List.map_append, List.nodup_append] at hn
  constructor
  · intro ha hm
    simp only [List.map_append, List.mem_append, List.mem_map, List.mem_filter] at hm
    rcases hm with ⟨x, ⟨_, hx⟩, e⟩ | ⟨x, hx, e⟩
    · simp [e] at hx
    · exact hn.2.2 t (List.mem_map_of_mem (f := (·.1)) ha) t (by rw [← e]; exact List.mem_map_of_mem (f := (·.1)) hx) rfl
  · intro hs hm
    simp only [List.map_append, List.mem_append, List.mem_map, List.mem_filter] at hm
    rcases hm with ⟨x, hx, e⟩ | ⟨x, ⟨_, hx⟩, e⟩
    · exact hn.2.2 t (by rw [← e]; exact List.mem_map_of_mem (f := (·.1)) hx) t (List.mem_map_of_mem (f := (·.1)) hs) rfl
    · simp [e] at hx

theorem step_good {K S b w} (E : Env) (e : Event) (q : Prop) (h : Inv K S b w) (hq : q → Calm S ∧ ∀ t, e ≠ .close t) :
    ∃ b' w', Good K q S b w (step K E S e) b' w' := by
  unfold step
  split
  · exact ⟨b, w, good_same h rfl rfl rfl rfl rfl [] (by simp)⟩
  · have idle : ∀ t, ¬(waiting t (S.awake ++ S.sleeping)).isSome = true → t ∉ (waiters S).map (·.1) := by
      intro t ht
      apply waiting_none
      cases hw : waiting t (S.awake ++ S.sleeping) with
      | none => exact hw
      | some p => rw [hw] at ht; simp at ht
    cases e with
    | resume t =>
      simp only
      cases ha : waiting t S.awake with
      | some p =>
        have hm : (t, p) ∈ waiters S := List.mem_append_left _ (waiting_mem ha)
        have hi : Inv K { S with awake := S.awake.filter fun w => w.1 ≠ t } b w := inv_wake h List.filter_sublist (List.Sublist.refl _)
        obtain ⟨b', w', hg⟩ := resume_good (t := t) (p := p) E q hi ((gone h.wait).1 (waiting_mem ha))
          (fun e => ⟨h.idle t p hm (by intro u l e'; rw [e] at e'; cases e'), fun hs => h.noPool hs t (by rw [← e]; exact hm)⟩)
          (fun u l e x => (hq x).1 _ hm u l e)
        exact ⟨b', w', hg.from rfl rfl rfl rfl rfl⟩
      | none =>
        simp only
        cases hs : waiting t S.sleeping with
        | some p =>
          have hm : (t, p) ∈ waiters S := List.mem_append_right _ (waiting_mem hs)
          have hi : Inv K { S with sleeping := S.sleeping.filter fun w => w.1 ≠ t } b w :=
            inv_wake h (List.Sublist.refl _) List.filter_sublist
          obtain ⟨b', w', hg⟩ := resume_good (t := t) (p := p) E q hi ((gone h.wait).2 (waiting_mem hs))
            (fun e => ⟨h.idle t p hm (by intro u l e'; rw [e] at e'; cases e'), fun hs => h.noPool hs t (by rw [← e]; exact hm)⟩)
            (fun u l e x => (hq x).1 _ hm u l e)
          exact ⟨b', w', hg.from rfl rfl rfl rfl rfl⟩
        | none => exact ⟨b, w, good_same h rfl rfl rfl rfl rfl [] (by simp)⟩
    | acquire t =>
      simp only
      split
      · exact ⟨b, w, good_same h rfl rfl rfl rfl rfl [] (by simp)⟩
      · next hn => exact acquire_good E q h (idle t hn)
    | release t c =>
      simp only
      split
      · exact ⟨b, w, good_same h rfl rfl rfl rfl rfl [] (by simp)⟩
      · exact release_good q h
    | close t =>
      simp only
      split
      · exact ⟨b, w, good_same h rfl rfl rfl rfl rfl [] (by simp)⟩
      · next hn => exact ⟨b, w, (close_good E h (idle t hn)).weaken (fun x => (hq x).2 t rfl)⟩

/-- Whether threads wait in `close` does not change without `close`. -/
theorem calm_same {S S' : State} (h : Calm S) (hw : ∀ x ∈ waiters S', x ∈ waiters S ∨ x.2 = .pool ∨ x.2 = .module) : Calm S' := by
  intro x hx u l e
  rcases hw x hx with hx | hx | hx
  · exact h x hx u l e
  · rw [e] at hx; cases hx
  · rw [e] at hx; cases hx

theorem take_waiters (K : Config) (S : State) (t : Tid) (l : Entry) (obs : List Obs) : waiters (take K S t l obs).1 = waiters S := by
  unfold take; split <;> rfl

theorem search_waiters (K : Config) (E : Env) (S : State) (t : Tid) :
    ∀ x ∈ waiters (search K E S t).1, x ∈ waiters S ∨ x.2 = .pool ∨ x.2 = .module := by
  intro x hx
  unfold search at hx
  split at hx
  · rw [take_waiters] at hx; exact .inl hx
  · split at hx
    · split at hx
      · rw [take_waiters] at hx; exact .inl hx
      · exact .inl hx
    · split at hx
      · simp only at hx
        split at hx
        · rw [take_waiters] at hx; exact .inl hx
        · split at hx
          · rw [take_waiters] at hx; exact .inl hx
          · exact .inl hx
      · split at hx
        · split at hx <;> exact .inl hx
        · simp only [waiters, ← List.append_assoc, List.mem_append, List.mem_singleton] at hx
          rcases hx with hx | hx
          · exact .inl (List.mem_append.2 hx)
          · exact .inr (.inl (by rw [hx]))

theorem enter_waiters (K : Config) (E : Env) (S : State) (t : Tid) :
    ∀ x ∈ waiters (enter K E S t).1, x ∈ waiters S ∨ x.2 = .pool ∨ x.2 = .module := by
  intro x hx
  unfold enter at hx
  split at hx
  · simp only [waiters, ← List.append_assoc, List.mem_append, List.mem_singleton] at hx
    rcases hx with hx | hx
    · exact .inl (List.mem_append.2 hx)
    · exact .inr (.inr (by rw [hx]))
  · unfold owned at hx
    split at hx
    · split at hx
      · exact .inl hx
      · have := search_waiters K E _ t x hx
        exact this
    · have := search_waiters K E _ t x hx
      exact this

theorem releaseEntry_waiters (K : Config) (S : State) (t u : Tid) (l : Entry) :
    waiters (releaseEntry K S t u l).1 = waiters S := by
  unfold releaseEntry
  split
  · rfl
  · split
    · rfl
    · simp only
      split
      · rw [waiters_notify]; rfl
      · rfl

theorem release_waiters (K : Config) (S : State) (t : Tid) (c : Conn) : waiters (release K S t c).1 = waiters S := by
  have other : waiters (releaseOther K S t c).1 = waiters S := by
    unfold releaseOther
    split
    · exact releaseEntry_waiters ..
    · split
      · unfold releaseDead
        split
        · rfl
        · simp only
          split
          · rfl
          · split <;> rfl
      · rfl
  unfold release
  split
  · split
    · exact releaseEntry_waiters ..
    · exact other
  · exact other

theorem step_calm {K S} (E : Env) (e : Event) (h : Calm S) (he : ∀ t, e ≠ .close t) : Calm (step K E S e).1 := by
  have sub : ∀ {a s : List (Tid × Point)}, a.Sublist S.awake → s.Sublist S.sleeping → Calm { S with awake := a, sleeping := s } :=
    fun h1 h2 x hx => h x ((h1.append h2).subset hx)
  have res : ∀ {S' : State} {t p}, Calm S' → (t, p) ∈ waiters S → Calm (resume K E S' t p).1 := by
    intro S' t p hc hm
    cases p with
    | module =>
      rw [resume]
      split
      · exact hc
      · exact calm_same hc (enter_waiters K E S' t)
    | pool =>
      rw [resume]
      exact calm_same hc (search_waiters K E S' t)
    | closing u l => exact absurd rfl (h _ hm u l)
  unfold step
  split
  · exact h
  · cases e with
    | resume t =>
      simp only
      split
      · next ha =>
        exact res (sub List.filter_sublist (List.Sublist.refl _)) (List.mem_append_left _ (waiting_mem ha))
      · split
        · next ha =>
          exact res (sub (List.Sublist.refl _) List.filter_sublist) (List.mem_append_right _ (waiting_mem ha))
        · exact h
    | acquire t =>
      simp only
      split
      · exact h
      · unfold acquire
        split
        · exact h
        · exact calm_same h (enter_waiters K E S t)
    | release t c =>
      simp only
      split
      · exact h
      · intro x hx
        rw [release_waiters] at hx
        exact h x hx
    | close t => exact absurd rfl (he t)

theorem run_calm {K} (sched : List (Env × Event)) : ∀ {S}, Calm S → Open sched → Calm (run K S sched).1 := by
  induction sched with
  | nil => intro S h _; exact h
  | cons p rest ih =>
    intro S h ho
    obtain ⟨E, e⟩ := p
    exact ih (step_calm E e h (fun t => ho _ (.head _) t)) (fun y hy => ho y (.tail _ hy))

theorem run_good {K} (q : Prop) (sched : List (Env × Event)) : ∀ {S b w}, Inv K S b w → (q → Calm S ∧ Open sched) →
    ∃ b' w', Good K q S b w (run K S sched) b' w' := by
  induction sched with
  | nil =>
    intro S b w h _
    exact ⟨b, w, good_same h rfl rfl rfl rfl rfl [] (by simp)⟩
  | cons p rest ih =>
    intro S b w h hq
    obtain ⟨E, e⟩ := p
    obtain ⟨b1, w1, g1⟩ := step_good E e q h (fun x => ⟨(hq x).1, fun t => (hq x).2 _ (.head _) t⟩)
    obtain ⟨b2, w2, g2⟩ := ih g1.inv (fun x => ⟨step_calm E e (hq x).1 (fun t => (hq x).2 _ (.head _) t), fun y hy => (hq x).2 y (.tail _ hy)⟩)
    exact ⟨b2, w2, g1.trans g2⟩

theorem inv_init (K : Config) : Inv K init (fun _ _ => 0) (fun _ => 0) := by
  constructor <;> simp [init, keys, waiters]

theorem start {K} (q : Prop) (sched : List (Env × Event)) (hq : q → Open sched) :
    ∃ b w, Good K q init (fun _ _ => 0) (fun _ => 0) (run K init sched) b w :=
  run_good q sched (inv_init K) fun x => ⟨by intro y hy; simp [init, waiters] at hy, hq x⟩

theorem has_iff {K q b w sched} (g : Good K q init (fun _ _ => 0) (fun _ => 0) (run K init sched) b w) (t : Tid) (c : Conn) :
    Has (run K init sched).2 t c ↔ b t c ≠ 0 := by
  have := g.bal t c
  unfold Has
  omega

/-! ## One thread at a time -/

/-- However threads acquire, release, give back what is not theirs, run out of time or close the container: no connection is
with two threads at once. -/
theorem connection_has_one_user (K : Config) (sched : List (Env × Event)) (t u : Tid) (c : Conn)
    (ht : Has (run K init sched).2 t c) (hu : Has (run K init sched).2 u c) : t = u := by
  obtain ⟨b, w, g⟩ := start (K := K) False sched False.elim
  exact g.inv.one t u c ((has_iff g t c).1 ht) ((has_iff g u c).1 hu)

/-- A thread never gives back more often than it got. -/
theorem releases_at_most_gots (K : Config) (sched : List (Env × Event)) (t : Tid) (c : Conn) :
    (run K init sched).2.count (.released t c) ≤ (run K init sched).2.count (.got t c) := by
  obtain ⟨b, w, g⟩ := start (K := K) False sched False.elim
  have := g.bal t c
  omega

/-- As long as the container is not closed a thread has at most one connection. -/
theorem thread_has_one_connection (K : Config) (sched : List (Env × Event)) (ho : Open sched) (t : Tid) (c d : Conn)
    (hc : Has (run K init sched).2 t c) (hd : Has (run K init sched).2 t d) : c = d := by
  obtain ⟨b, w, g⟩ := start (K := K) True sched (fun _ => ho)
  have hh := g.held trivial (by intro t c hb; exact absurd rfl hb)
  obtain ⟨l, hl, e1⟩ := hh t c ((has_iff g t c).1 hc)
  obtain ⟨m, hm, e2⟩ := hh t d ((has_iff g t d).1 hd)
  have := unique g.inv.keysU hl hm
  subst this
  rw [← e1, ← e2]

/-- Every connection that is handed out was opened before; if connections must not be shared it was opened by the thread that
gets it. -/
theorem got_was_opened (K : Config) (sched : List (Env × Event)) (t : Tid) (c : Conn) (h : .got t c ∈ (run K init sched).2) :
    ∃ u, .opened u c ∈ (run K init sched).2 ∧ (K.safety ≤ 1 → u = t) := by
  obtain ⟨b, w, g⟩ := start (K := K) False sched False.elim
  obtain ⟨hlt, hw⟩ := g.gots t c h
  rcases g.opens c hlt with h0 | h0
  · exact absurd h0 (Nat.not_lt_zero c)
  · exact ⟨_, h0, hw⟩

/-- As long as the container is not closed, no more connections are open than are allowed. -/
theorem open_connections_bounded (K : Config) (sched : List (Env × Event)) (ho : Open sched) :
    openings (run K init sched).2 ≤ closings (run K init sched).2 + K.cap := by
  obtain ⟨b, w, g⟩ := start (K := K) True sched (fun _ => ho)
  have h1 := g.count trivial
  have h2 := g.inv.size
  have e1 : init.inUse.length = 0 := rfl
  have e2 : init.unused.length = 0 := rfl
  omega

/-- What is known of a thread that has a connection while the container is not closed. -/
theorem holder {K : Config} {sched : List (Env × Event)} (ho : Open sched) {t : Tid} {c : Conn} (hc : Has (run K init sched).2 t c) :
    ∃ b w l, Inv K (run K init sched).1 b w ∧ (t, l) ∈ (run K init sched).1.inUse ∧ l.dbc = c ∧ (run K init sched).1.stuck = false ∧
      (run K init sched).1.closing = false ∧ waiting t ((run K init sched).1.awake ++ (run K init sched).1.sleeping) = none := by
  obtain ⟨b, w, g⟩ := start (K := K) True sched (fun _ => ho)
  have hh := g.held trivial (by intro t c hb; exact absurd rfl hb)
  obtain ⟨l, hl, e1⟩ := hh t c ((has_iff g t c).1 hc)
  obtain ⟨f1, f2⟩ := g.fine trivial rfl rfl
  have calm := run_calm (K := K) sched (S := init) (by intro y hy; simp [init, waiters] at hy) ho
  refine ⟨b, w, l, g.inv, hl, e1, f1, f2, ?_⟩
  cases hw : waiting t ((run K init sched).1.awake ++ (run K init sched).1.sleeping) with
  | none => rfl
  | some p => exact absurd (mem_keys.2 ⟨l, hl⟩) (g.inv.idle t p (waiting_mem hw) (calm _ (waiting_mem hw)))

/-- A thread that has a connection and asks for one gets the one it has, at once. -/
theorem nested_acquire_gets_the_same (K : Config) (sched : List (Env × Event)) (ho : Open sched) (E : Env) (t : Tid) (c : Conn)
    (hc : Has (run K init sched).2 t c) : (step K E (run K init sched).1 (.acquire t)).2 = [.got t c] := by
  obtain ⟨b, w, l, hi, hl, e1, f1, f2, hnot⟩ := holder ho hc
  generalize (run K init sched).1 = S at *
  obtain ⟨u1, u2, u3, u4⟩ := hi.user t l hl
  obtain ⟨m, hm⟩ : ∃ m, tryModule K t S.moduleLock = some m := by
    unfold tryModule
    by_cases hs : K.safety = 0
    · obtain ⟨n, e, _⟩ := u4 hs
      rw [if_pos hs, e, tryLock, if_pos rfl]
      exact ⟨_, rfl⟩
    · rw [if_neg hs]; exact ⟨_, rfl⟩
  obtain ⟨k, hk⟩ : ∃ k, tryConn K t l.lock = some k := by
    unfold tryConn
    by_cases hs : K.safety = 0
    · rw [if_pos hs]; exact ⟨_, rfl⟩
    · rw [if_neg hs, u3, if_neg hs, tryLock, if_pos rfl]; exact ⟨_, rfl⟩
  simp [step, f1, hnot, acquire, f2, enter, hm, owned, get_of_mem hi.keysU hl, hk, e1]

/-- A thread that has a connection can give it back. -/
theorem holder_can_release (K : Config) (sched : List (Env × Event)) (ho : Open sched) (E : Env) (t : Tid) (c : Conn)
    (hc : Has (run K init sched).2 t c) : (step K E (run K init sched).1 (.release t c)).2 = [.released t c] := by
  obtain ⟨b, w, l, hi, hl, e1, f1, f2, hnot⟩ := holder ho hc
  generalize (run K init sched).1 = S at *
  obtain ⟨m, k, _, _, _, e⟩ := own hi hl
  have : (releaseEntry K S t t l).2 = [.released t l.dbc] := by
    rw [e]; split <;> rfl
  simp [step, f1, hnot, release, get_of_mem hi.keysU hl, e1] at this ⊢
  exact this

theorem byConn_of_mem {c : Conn} {u : Tid} {l : Entry} {d : List (Tid × Entry)} (h : (u, l) ∈ d) (e : l.dbc = c) :
    ∃ p, byConn c d = some p := by
  induction d with
  | nil => cases h
  | cons q d ih =>
    obtain ⟨v, m⟩ := q
    rw [byConn]
    by_cases hc : m.dbc = c
    · rw [if_pos hc]; exact ⟨_, rfl⟩
    · rw [if_neg hc]
      rcases List.mem_cons.1 h with h | h
      · cases h; exact absurd e hc
      · exact ih h

/-- A thread cannot give back the connection of another one: `ReleaseConnection` raises an exception, and the other thread still
has it. -/
theorem release_of_anothers_fails (K : Config) (sched : List (Env × Event)) (ho : Open sched) (E : Env) (t u : Tid) (c : Conn)
    (hne : t ≠ u) (hc : Has (run K init sched).2 u c) (hw : (step K E (run K init sched).1 (.release t c)).2 ≠ []) :
    (step K E (run K init sched).1 (.release t c)).2 = [.runtimeError t] ∧ Has (run K init (sched ++ [(E, .release t c)])).2 u c := by
  have ho' : Open (sched ++ [(E, .release t c)]) := by
    intro p hp v
    rcases List.mem_append.1 hp with hp | hp
    · exact ho p hp v
    · rw [List.mem_singleton.1 hp]; simp
  have key : (step K E (run K init sched).1 (.release t c)).2 = [.runtimeError t] := by
    obtain ⟨b, w, l, hi, hl, e1, f1, f2, _⟩ := holder ho hc
    generalize (run K init sched).1 = S at *
    have hnot : ¬(waiting t (S.awake ++ S.sleeping)).isSome = true := by
      intro hs
      exact hw (by simp [step, f1, hs])
    have hother : (releaseOther K S t c).2 = [.runtimeError t] := by
      unfold releaseOther
      obtain ⟨p, hp⟩ := byConn_of_mem hl e1
      obtain ⟨v, m⟩ := p
      obtain ⟨hm, em⟩ := byConn_mem hp
      obtain ⟨rfl, rfl⟩ := use_apart hi hl hm (by rw [e1, em])
      rw [hp]
      obtain ⟨S', e, _⟩ := foreign hi hl hne
      simp only [e]
    have : (release K S t c).2 = [.runtimeError t] := by
      unfold release
      cases hg : entryOf t S.inUse with
      | none => exact hother
      | some m =>
        simp only
        rw [if_neg]
        · exact hother
        · intro em
          exact hne (use_apart hi (get_mem hg) hl (by rw [em, e1])).1
    simp only [step, f1, hnot]
    exact this
  refine ⟨key, ?_⟩
  have happ : (run K init (sched ++ [(E, .release t c)])).2 = (run K init sched).2 ++ [.runtimeError t] := by
    have : ∀ (S : State) (a : List (Env × Event)), (run K S (a ++ [(E, .release t c)])).2 =
        (run K S a).2 ++ (step K E (run K S a).1 (.release t c)).2 := by
      intro S a
      induction a generalizing S with
      | nil => simp [run]
      | cons p a ih =>
        obtain ⟨F, f⟩ := p
        simp only [List.cons_append, run]
        rw [ih, List.append_assoc]
    rw [this, key]
  unfold Has at hc ⊢
  rw [happ]
  simpa [List.count_append] using hc

/-! ## Cases -/

/-- Everything works and there is time. -/
def E0 : Env := ⟨true, false, fun _ => 0, fun _ => true⟩

/-- Two threads and one connection that may be shared: the second one waits until the first has given back twice what it got twice. -/
example : (run ⟨2, 1⟩ init [(E0, .acquire 1), (E0, .acquire 1), (E0, .acquire 2), (E0, .release 2 0), (E0, .release 1 0), (E0, .resume 2),
    (E0, .release 1 0), (E0, .resume 2)]).2 =
    [.opened 1 0, .got 1 0, .got 1 0, .released 1 0, .released 1 0, .got 2 0] := by decide +kernel

/-- The hypotheses of the theorems above are met. -/
example : Has (run ⟨1, 2⟩ init [(E0, .acquire 1), (E0, .acquire 2), (E0, .acquire 1), (E0, .release 2 1)]).2 1 0 := by
  unfold Has; decide +kernel
example : Open [(E0, .acquire 1), (E0, .acquire 2), (E0, .acquire 1), (E0, .release 2 1)] := by
  intro p hp t
  simp only [List.mem_cons, List.not_mem_nil, or_false] at hp
  rcases hp with rfl | rfl | rfl | rfl <;> simp
example : (step ⟨1, 2⟩ E0 (run ⟨1, 2⟩ init [(E0, .acquire 1), (E0, .acquire 2)]).1 (.release 2 0)).2 = [.runtimeError 2] := by decide +kernel
/-- The bound is reached, and a connection that must not be shared is closed and opened again. -/
example : (run ⟨1, 1⟩ init [(E0, .acquire 1), (E0, .release 1 0), (E0, .acquire 2)]).2 =
    [.opened 1 0, .got 1 0, .released 1 0, .closed 0, .opened 2 1, .got 2 1] := by decide +kernel

end PO

end Verif.Props
