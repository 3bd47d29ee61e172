import Verif.Lemmas.HttpPoolQuiet

/-!
# Connections of the HTTP client under every schedule
-/

namespace Verif.Props

open Verif.Http.Pool Verif.Spec.HttpPool

namespace HttpPool

theorem nodup_length {α : Type} [DecidableEq α] : ∀ (l m : List α), l.Nodup → (∀ x ∈ l, x ∈ m) → l.length ≤ m.length
  | [], _, _, _ => Nat.zero_le _
  | a :: l, m, hn, h => by
    rw [List.nodup_cons] at hn
    have ha := h a List.mem_cons_self
    have := nodup_length l (m.erase a) hn.2 fun x hx =>
      (List.mem_erase_of_ne fun (e : x = a) => hn.1 (e ▸ hx)).2 (h x (List.mem_cons_of_mem _ hx))
    rw [List.length_erase_of_mem ha] at this
    have hp := List.length_pos_of_mem ha
    rw [List.length_cons]
    omega

/-- Targets and times for examples. -/
def targetX : Target := ⟨"http".toList, "x".toList, 80⟩
def targetY : Target := ⟨"http".toList, "y".toList, 80⟩
def targetZ : Target := ⟨"http".toList, "z".toList, 80⟩
def targetW : Target := ⟨"http".toList, "w".toList, 80⟩
def time (n : Nat) : Env := ⟨n, false, id⟩

theorem reached_run (max : Nat) (sched : List (Env × Event)) : Reached max (run max init sched).1 (run max init sched).2 :=
  ⟨sched, rfl⟩

/-! ## The search -/

/-- The ways in which the search for a connection ends. -/
inductive Outcome (max : Nat) (E : Env) (t : Tid) (g : Target) (S : State) : State × List Obs → Prop where
  | found (c : Conn) : ((t, g), c) ∈ S.active → Outcome max E t g S (S, [.queued t g c])
  | reused (c : Conn) : (∀ d, ((t, g), d) ∉ S.active) → c ∈ S.idle → (S.info c).target = g →
      (∀ d ∈ S.idle, (S.info d).target = g → (S.info d).last ≤ (S.info c).last) →
      Outcome max E t g S (activate S c t, [.queued t g c])
  | made : (∀ d, ((t, g), d) ∉ S.active) → (∀ c ∈ S.idle, (S.info c).target ≠ g) → S.active.length + S.idle.length < max →
      Outcome max E t g S (activate (make S g) S.next t, [.made S.next, .queued t g S.next])
  | replaced (c : Conn) : (∀ d, ((t, g), d) ∉ S.active) → (∀ c ∈ S.idle, (S.info c).target ≠ g) →
      S.active.length + S.idle.length = max → c ∈ S.idle → (∀ d ∈ S.idle, (S.info c).last ≤ (S.info d).last) →
      Outcome max E t g S
        (activate (make (without S c) g) S.next t, [.shut c, .made S.next, .queued t g S.next])
  | busy : (∀ d, ((t, g), d) ∉ S.active) → S.idle = [] → S.active.length = max → E.late = true → Outcome max E t g S (S, [.busy t])
  | sleep : (∀ d, ((t, g), d) ∉ S.active) → S.idle = [] → S.active.length = max → E.late = false →
      Outcome max E t g S ({ S with sleeping := S.sleeping ++ [(t, g)] }, [])

theorem search_outcome {max : Nat} {E : Env} {t : Tid} {g : Target} {n : Nat} {S : State} (h : Inv max S) (hn : S.idle.length < n) :
    Outcome max E t g S (search max E t g n S) := by
  refine search_ind (P := fun S r => Inv max S → Outcome max E t g S r) ?_ ?_ ?_ ?_ ?_ ?_ n S hn h
  · exact fun S c hf _ => .found c (find_mem hf)
  · exact fun S c hf hc ht hy _ => .reused c (find_none hf) hc ht hy
  · exact fun S hf hi hl _ => .made (find_none hf) hi hl
  · intro S c r hf hi hl hc ho ih h
    have hb := h.bound
    have hlen : (S.idle.filter fun d => d ≠ c).length < S.idle.length := length_without hc
    have hlen' : (S.idle.filter fun d => d ≠ c).length + 1 = S.idle.length := length_without_nodup h.idlN hc
    have hpos := List.length_pos_of_mem hc
    cases ih (without_inv h c) with
    | found d hd => exact absurd hd (find_none hf d)
    | reused d _ hd ht _ => exact absurd ht (hi d (List.mem_filter.1 hd).1)
    | made h1 h2 h3 => exact .replaced c (find_none hf) hi (Nat.le_antisymm hb hl) hc ho
    | replaced d h1 h2 h3 h4 _ =>
      have h3 : S.active.length + (S.idle.filter fun d => d ≠ c).length = max := h3
      omega
    | busy _ h1 h2 _ =>
      have h2 : S.active.length = max := h2
      omega
    | sleep _ h1 h2 _ =>
      have h2 : S.active.length = max := h2
      omega
  · exact fun S hf hi hm hl h => .busy (find_none hf) hi (Nat.le_antisymm (Nat.le_trans (Nat.le_add_right _ _) h.bound) hm) hl
  · exact fun S hf hi hm hl h => .sleep (find_none hf) hi (Nat.le_antisymm (Nat.le_trans (Nat.le_add_right _ _) h.bound) hm) hl

/-- A step in which something is queued is a search. -/
theorem queued_search {max : Nat} {E : Env} {S : State} {e : Event} {t : Tid} {g : Target} {c : Conn} (h : Inv max S)
    (hq : .queued t g c ∈ (step max E S e).2) : ∃ S1, Inv max S1 ∧ S1.active = S.active ∧ S1.info = S.info ∧ S1.idle = S.idle ∧
      S1.threads = S.threads ∧ Free S1 t ∧ S1.task = S.task ∧ step max E S e = search max E t g (S1.idle.length + 1) S1 := by
  have key : ∀ u k S1, Inv max S1 → .queued t g c ∈ (search max E u k (S1.idle.length + 1) S1).2 → u = t ∧ k = g := by
    intro u k S1 h1 hm
    generalize hr : search max E u k (S1.idle.length + 1) S1 = r at hm
    have := search_outcome (E := E) (t := u) (g := k) h1 (Nat.lt_succ_self S1.idle.length)
    rw [hr] at this
    cases this <;> simp_all
  cases e with
  | queue u k =>
    simp only [step] at hq ⊢
    split at hq
    · cases hq
    · rename_i hw
      rw [if_neg hw]
      unfold queue at hq ⊢
      split at hq
      · simp at hq
      · rename_i hc
        rw [if_neg hc]
        obtain ⟨e1, e2⟩ := key u k S h hq
        subst e1 e2
        exact ⟨S, h, rfl, rfl, rfl, rfl, free_of_waits hw, rfl, rfl⟩
  | resume u =>
    simp only [step] at hq ⊢
    cases hwa : waiting u S.awake with
    | some k =>
      rw [hwa] at hq
      have hi := fewer_waiters h (List.filter_sublist (p := fun w : Tid × Target => decide (w.1 ≠ u)) (l := S.awake))
        (List.Sublist.refl S.sleeping)
      obtain ⟨e1, e2⟩ := key u k _ hi hq
      subst e1 e2
      exact ⟨_, hi, rfl, rfl, rfl, rfl, free_awake h (waiting_mem hwa), rfl, rfl⟩
    | none =>
      rw [hwa] at hq
      dsimp only at hq ⊢
      cases hws : waiting u S.sleeping with
      | some k =>
        rw [hws] at hq
        have hi := fewer_waiters h (List.Sublist.refl S.awake)
          (List.filter_sublist (p := fun w : Tid × Target => decide (w.1 ≠ u)) (l := S.sleeping))
        obtain ⟨e1, e2⟩ := key u k _ hi hq
        subst e1 e2
        exact ⟨_, hi, rfl, rfl, rfl, rfl, free_sleeping (waiting_none hwa), rfl, rfl⟩
      | none => rw [hws] at hq; cases hq
  | start u =>
    simp only [step] at hq
    split at hq <;> cases hq
  | touch u =>
    simp only [step] at hq
    split at hq
    · cases hq
    · cases hk : S.task u with
      | nil => rw [hk] at hq; cases hq
      | cons c cs => rw [hk] at hq; cases hq
  | rest u =>
    simp only [step] at hq
    split at hq
    · cases hq
    · cases hk : S.task u with
      | nil => rw [hk] at hq; cases hq
      | cons c cs => rw [hk] at hq; cases hq
  | leave u =>
    simp only [step] at hq
    split at hq <;> cases hq
  | activeCleanup limit order =>
    simp only [step, activeCleanup] at hq
    split at hq
    · split at hq <;> simp at hq
    · cases hq
  | idleCleanup limit => simp [step, idleCleanup] at hq
  | close => cases hq

end HttpPool

open HttpPool

/-! ## C242: the number of connections -/

/-- **C242.**  Whatever the threads do and in whatever order, there are never more active and idle connections than
`maxConnections`; so `ActiveCount()` is never more. -/
theorem http_pool_bounded (max : Nat) (S : State) (H : List Obs) (h : Reached max S H) :
    activeCount S + S.idle.length ≤ max ∧ activeCount S ≤ max :=
  ⟨(reached_inv h).bound, Nat.le_trans (Nat.le_add_right _ _) (reached_inv h).bound⟩

/-- The bound is met, and a third thread waits. -/
theorem http_pool_bounded_hypotheses :
    ∃ S H, Reached 2 S H ∧ activeCount S = 2 ∧ Sleeps S 3 :=
  ⟨_, _, reached_run 2 [(time 0, .queue 1 targetX), (time 0, .queue 2 targetX), (time 0, .queue 3 targetX)], by decide,
    targetX, by decide⟩

/-! ## C243: no connection in two threads -/

/-- **C243.**  Whatever the threads do and in whatever order, no connection is used by two threads at a time, and no idle
connection is used by any. -/
theorem http_pool_exclusive (max : Nat) (S : State) (H : List Obs) (h : Reached max S H) (t u : Tid) (c : Conn) :
    (Uses S t c → Uses S u c → t = u) ∧ (Uses S t c → c ∉ S.idle) := by
  have hi := reached_inv h
  have key : ∀ v, Uses S v c → (S.info c).thread = some v := fun v hv => by
    rcases hv with hv | hv
    · exact hi.thr v c hv
    · exact hi.tsk v c hv
  refine ⟨fun h1 h2 => Option.some.inj ((key t h1).symm.trans (key u h2)), fun h1 h2 => ?_⟩
  have := (hi.idl c h2).1
  rw [key t h1] at this
  cases this

/-- Two threads use connections to the same target, and a third connection is idle. -/
theorem http_pool_exclusive_hypotheses :
    ∃ S H, Reached 3 S H ∧ Uses S 1 1 ∧ Uses S 2 2 ∧ S.idle = [3] :=
  ⟨_, _, reached_run 3 [(time 0, .queue 1 targetX), (time 0, .queue 2 targetX), (time 0, .queue 3 targetX), (time 0, .start 3),
    (time 0, .rest 3)], .inl (by decide), .inl (by decide), by decide⟩

/-! ## C244: where a request is put -/

/-- **C244.**  Whenever a call of `QueueRequest` succeeds, the request is put on a connection to its scheme, host and port that the
calling thread uses, so that the next `ThreadTask` of the thread processes it. -/
theorem http_pool_queued (max : Nat) (S : State) (H : List Obs) (h : Reached max S H) (E : Env) (e : Event) (t : Tid) (g : Target)
    (c : Conn) (hq : .queued t g c ∈ (step max E S e).2) :
    (t, c) ∈ (step max E S e).1.threads ∧ ((step max E S e).1.info c).target = g ∧
      ∀ E', (step max E S e).1.task t = [] →
        c ∈ (step max E' (step max E S e).1 (.start t)).1.task t := by
  have hi := reached_inv h
  obtain ⟨S1, h1, ha, hinf, hid, hth, hfree, htask, hs⟩ := queued_search hi hq
  have hi' := step_inv (E := E) hi e
  have ho := search_outcome (E := E) (t := t) (g := g) h1 (Nat.lt_succ_self S1.idle.length)
  rw [← hs] at ho
  have main : ((t, g), c) ∈ (step max E S e).1.active ∧ Free (step max E S e).1 t := by
    generalize hr : step max E S e = r at ho hq
    cases ho with
    | found d hd =>
      simp at hq
      subst hq
      exact ⟨hd, hfree⟩
    | reused d hd1 hd2 hd3 _ =>
      simp at hq
      subst hq hd3
      exact ⟨List.mem_cons_self, hfree⟩
    | made h2 h3 h4 =>
      simp at hq
      subst hq
      refine ⟨?_, hfree⟩
      show ((t, g), S1.next) ∈ ((t, ((make S1 g).info S1.next).target), S1.next) :: _
      have : ((make S1 g).info S1.next).target = g := congrArg Info.target (setInfo_same _ S1.next ⟨g, none, 0⟩)
      rw [this]
      exact List.mem_cons_self
    | replaced d h2 h3 h4 h5 h6 =>
      simp at hq
      subst hq
      refine ⟨?_, hfree⟩
      show ((t, g), S1.next) ∈ ((t, ((make (without S1 d) g).info S1.next).target), S1.next) :: _
      have : ((make (without S1 d) g).info S1.next).target = g := congrArg Info.target (setInfo_same _ S1.next ⟨g, none, 0⟩)
      rw [this]
      exact List.mem_cons_self
    | busy => simp at hq
    | sleep => cases hq
  obtain ⟨h2, h3, h4⟩ := hi'.act t g c main.1
  refine ⟨h4, h2, fun E' hk => ?_⟩
  have hw : ¬ waits (step max E S e).1 t = true := fun hw => by
    obtain ⟨k, hk⟩ := Option.isSome_iff_exists.1 hw
    exact main.2 k (waiting_mem hk)
  generalize step max E S e = r at *
  simp only [step]
  rw [if_neg (fun hx => hx.elim hw fun hx => hx hk)]
  show c ∈ setTask r.1.task t _ t
  rw [setTask_same]
  exact mem_snapshot.2 h4

/-- A thread that had to wait gets the connection that another thread has given up, and processes it. -/
theorem http_pool_queued_hypotheses :
    ∃ S H, Reached 1 S H ∧ .queued 2 targetX 1 ∈ (step 1 (time 5) S (.resume 2)).2 ∧
      (step 1 (time 5) S (.resume 2)).1.task 2 = [] :=
  ⟨_, _, reached_run 1 [(time 0, .queue 1 targetX), (time 0, .queue 2 targetX), (time 1, .start 1), (time 1, .rest 1)],
    by decide, by decide⟩

/-! ## C245: which connection is taken -/

/-- **C245.**  A call of `QueueRequest` by a thread that does not wait, on a manager that is not closing: a thread that has a
connection to the target goes on with it; otherwise the idle connection to the target that was active last is taken; a connection
is made only if there is neither, and an idle connection is closed for it only if there are `maxConnections`, then one that was
active longest ago, and only one; the call waits or raises `RequestManagerBusy` only if all `maxConnections` connections are
active. -/
theorem http_pool_economy (max : Nat) (S : State) (H : List Obs) (h : Reached max S H) (E : Env) (t : Tid) (g : Target)
    (hw : ¬ Sleeps S t) (hw' : ¬ Woken S t) (hc : S.closing = false) :
    let o := (step max E S (.queue t g)).2
    (∀ c, ((t, g), c) ∈ S.active → o = [.queued t g c]) ∧
    ((∀ c, ((t, g), c) ∉ S.active) → (∃ c ∈ S.idle, (S.info c).target = g) →
      ∃ c ∈ S.idle, (S.info c).target = g ∧ (∀ d ∈ S.idle, (S.info d).target = g → (S.info d).last ≤ (S.info c).last) ∧
        o = [.queued t g c]) ∧
    (∀ c, .made c ∈ o → (∀ d, ((t, g), d) ∉ S.active) ∧ (∀ d ∈ S.idle, (S.info d).target ≠ g) ∧ .queued t g c ∈ o) ∧
    (∀ c, .shut c ∈ o → activeCount S + S.idle.length = max ∧ c ∈ S.idle ∧ (∀ d ∈ S.idle, (S.info c).last ≤ (S.info d).last) ∧
      ∃ d, o = [.shut c, .made d, .queued t g d]) ∧
    ((∀ c, .queued t g c ∉ o) → activeCount S = max ∧ (o = [.busy t] ↔ E.late = true)) := by
  have hi := reached_inv h
  have hwt : ¬ waits S t = true := fun hx => by
    obtain ⟨k, hk⟩ := Option.isSome_iff_exists.1 hx
    rcases List.mem_append.1 (waiting_mem hk) with hk | hk
    · exact hw' ⟨k, hk⟩
    · exact hw ⟨k, hk⟩
  have hst : step max E S (.queue t g) = search max E t g (S.idle.length + 1) S := by
    simp only [step]
    rw [if_neg hwt]
    unfold queue
    rw [hc]
    rfl
  have ho := search_outcome (E := E) (t := t) (g := g) hi (Nat.lt_succ_self S.idle.length)
  rw [← hst] at ho
  intro o
  have hoo : (step max E S (.queue t g)).2 = o := rfl
  clear_value o
  generalize step max E S (.queue t g) = r at ho hoo
  cases ho with
  | found c hm =>
    dsimp only at hoo
    subst hoo
    refine ⟨fun d hd => ?_, fun hn => absurd hm (hn c), fun d hd => by simp at hd, fun d hd => by simp at hd, fun hn => ?_⟩
    · rw [keys_unique hi.keys hd hm]
    · exact absurd List.mem_cons_self (hn c)
  | reused c h1 h2 h3 h4 =>
    dsimp only at hoo
    subst hoo
    refine ⟨fun d hd => absurd hd (h1 d), fun _ _ => ⟨c, h2, h3, h4, rfl⟩, fun d hd => by simp at hd, fun d hd => by simp at hd,
      fun hn => ?_⟩
    exact absurd List.mem_cons_self (hn c)
  | made h1 h2 h3 =>
    dsimp only at hoo
    subst hoo
    refine ⟨fun d hd => absurd hd (h1 d), fun _ hx => ?_, fun d hd => ?_, fun d hd => by simp at hd, fun hn => ?_⟩
    · obtain ⟨d, hd, hg⟩ := hx
      exact absurd hg (h2 d hd)
    · simp at hd
      subst hd
      exact ⟨h1, h2, by simp⟩
    · exact absurd (by simp) (hn S.next)
  | replaced c h1 h2 h3 h4 h5 =>
    dsimp only at hoo
    subst hoo
    refine ⟨fun d hd => absurd hd (h1 d), fun _ hx => ?_, fun d hd => ?_, fun d hd => ?_, fun hn => ?_⟩
    · obtain ⟨d, hd, hg⟩ := hx
      exact absurd hg (h2 d hd)
    · simp at hd
      subst hd
      exact ⟨h1, h2, by simp⟩
    · simp at hd
      subst hd
      exact ⟨h3, h4, h5, S.next, rfl⟩
    · exact absurd (by simp) (hn S.next)
  | busy h1 h2 h3 h4 =>
    dsimp only at hoo
    subst hoo
    refine ⟨fun d hd => absurd hd (h1 d), fun _ hx => ?_, fun d hd => by simp at hd, fun d hd => by simp at hd,
      fun _ => ⟨h3, fun _ => h4, fun _ => rfl⟩⟩
    obtain ⟨d, hd, hg⟩ := hx
    rw [h2] at hd
    cases hd
  | sleep h1 h2 h3 h4 =>
    dsimp only at hoo
    subst hoo
    refine ⟨fun d hd => absurd hd (h1 d), fun _ hx => ?_, (fun d hd => nomatch hd), (fun d hd => nomatch hd), fun _ => ⟨h3, ?_, ?_⟩⟩
    · obtain ⟨d, hd, hg⟩ := hx
      rw [h2] at hd
      cases hd
    · exact fun hx => by cases hx
    · exact fun hx => by rw [h4] at hx; cases hx

/-- Two idle connections to other targets, the second active longer ago: it is closed. -/
theorem http_pool_economy_hypotheses :
    ∃ S H, Reached 2 S H ∧ ¬ Sleeps S 3 ∧ ¬ Woken S 3 ∧ S.closing = false ∧
      (step 2 (time 9) S (.queue 3 targetZ)).2 = [.shut 2, .made 3, .queued 3 targetZ 3] ∧
      (step 2 (time 9) S (.queue 3 targetX)).2 = [.queued 3 targetX 1] := by
  refine ⟨_, _, reached_run 2 [(time 1, .queue 1 targetX), (time 1, .queue 2 targetY), (time 1, .start 2), (time 1, .touch 2),
    (time 1, .rest 2), (time 2, .start 1), (time 2, .touch 1), (time 2, .rest 1)], ?_, ?_, by decide, by decide, by decide⟩
  · rintro ⟨g, h⟩
    have : (run 2 init [(time 1, .queue 1 targetX), (time 1, .queue 2 targetY), (time 1, .start 2), (time 1, .touch 2),
      (time 1, .rest 2), (time 2, .start 1), (time 2, .touch 1), (time 2, .rest 1)]).1.sleeping = [] := by decide
    rw [this] at h
    cases h
  · rintro ⟨g, h⟩
    have : (run 2 init [(time 1, .queue 1 targetX), (time 1, .queue 2 targetY), (time 1, .start 2), (time 1, .touch 2),
      (time 1, .rest 2), (time 2, .start 1), (time 2, .touch 1), (time 2, .rest 1)]).1.awake = [] := by decide
    rw [this] at h
    cases h

/-! ## C246: one connection for each thread and target -/

/-- What the documentation promises: a thread has at most one connection to each target, at most `maxConnections` connections are
open, and a connection that has been killed is never used again. -/
def Promised (max : Nat) (S : State) (H : List Obs) : Prop :=
  (∀ t c d, Uses S t c → Uses S t d → (S.info c).target = (S.info d).target → c = d) ∧
  (∀ l : List Conn, l.Nodup → (∀ c ∈ l, Open H c) → l.length ≤ max) ∧
  (∀ c, .killed c ∈ H → c ∉ S.idle ∧ ∀ t, ¬ Uses S t c)

/-- **C246, as far as it holds.**  If `ActiveCleanup` never kills a connection of a thread that is in `ThreadTask`, everything is as
promised, and `ActiveCount()` counts the connections of all threads. -/
theorem http_pool_promise_partial (max : Nat) (sched : List (Env × Event)) (ha : OnlyAbandoned max init sched) :
    Promised max (run max init sched).1 (run max init sched).2 ∧
      activeCount (run max init sched).1 = (run max init sched).1.threads.length := by
  obtain ⟨q, _⟩ := run_quiet sched (inv_init max) quiet_init (wake_init max) ha
  have h := run_inv sched (inv_init max)
  generalize hS : (run max init sched).1 = S at *
  generalize hH : (run max init sched).2 = H at *
  rw [List.nil_append] at q
  have hu : ∀ t c, Uses S t c → ((t, (S.info c).target), c) ∈ S.active := fun t c hc => by
    rcases hc with hc | hc
    · exact q.own t c hc
    · exact q.own t c (q.tsk t c hc)
  refine ⟨⟨fun t c d hc hd e => ?_, fun l hn hl => ?_, fun c hc => ⟨fun hx => ?_, fun t hx => ?_⟩⟩, ?_⟩
  · have h1 := hu t c hc
    rw [e] at h1
    exact keys_unique h.keys h1 (hu t d hd)
  · have := nodup_length l (S.active.map (·.2) ++ S.idle) hn fun c hc => by
      rcases (q.opn c).1 (hl c hc) with ⟨k, hk⟩ | hx
      · exact List.mem_append_left _ (List.mem_map_of_mem (f := (·.2)) hk)
      · exact List.mem_append_right _ hx
    rw [List.length_append, List.length_map] at this
    exact Nat.le_trans this h.bound
  · exact ((q.opn c).2 (.inr hx)).2.2 hc
  · exact ((q.opn c).2 (.inl ⟨_, hu t c hx⟩)).2.2 hc
  · refine Nat.le_antisymm ?_ ?_
    · have := nodup_length (S.active.map (·.1)) (S.threads.map fun p => (p.1, (S.info p.2).target)) h.keys fun k hk => by
        obtain ⟨p, hp, e⟩ := List.mem_map.1 hk
        obtain ⟨h1, h2, h3⟩ := h.act p.1.1 p.1.2 p.2 hp
        refine List.mem_map.2 ⟨(p.1.1, p.2), h3, ?_⟩
        rw [← e]
        exact Prod.ext rfl h1
      rw [List.length_map, List.length_map] at this
      exact this
    · have := nodup_length S.threads (S.active.map fun p => (p.1.1, p.2)) h.thrN fun p hp =>
        List.mem_map.2 ⟨_, q.own p.1 p.2 hp, rfl⟩
      rw [List.length_map] at this
      exact this

/-- A thread stops, its connection is killed, and another thread takes its place. -/
theorem http_pool_promise_hypotheses :
    OnlyAbandoned 1 init [(time 0, .queue 1 targetX), (time 1, .start 1), (time 1, .touch 1), (time 1, .leave 1),
      (time 2, .queue 2 targetX), (time 100, .activeCleanup 90 [(1, 1)]), (time 100, .resume 2)] ∧
    (run 1 init [(time 0, .queue 1 targetX), (time 1, .start 1), (time 1, .touch 1), (time 1, .leave 1),
      (time 2, .queue 2 targetX), (time 100, .activeCleanup 90 [(1, 1)]), (time 100, .resume 2)]).2 =
      [.made 1, .queued 1 targetX 1, .killed 1, .made 2, .queued 2 targetX 2] := by
  refine ⟨⟨(fun _ _ h => nomatch h), ⟨(fun _ _ h => nomatch h), ⟨(fun _ _ h => nomatch h), ⟨(fun _ _ h => nomatch h),
    ⟨(fun _ _ h => nomatch h), ⟨?_, ⟨(fun _ _ h => nomatch h), trivial⟩⟩⟩⟩⟩⟩⟩, by decide⟩
  intro limit order _ t c hm _
  have hm : (t, c) ∈ [((1 : Nat), (1 : Nat))] := hm
  cases List.mem_singleton.1 hm
  decide

/-- Thread 1 processes its connection for longer than the limit; meanwhile the connection is killed, and a request that it finishes
queues another one. -/
def killedAtWork : List (Env × Event) :=
  [(time 100, .queue 1 targetX), (time 100, .start 1), (time 100, .touch 1), (time 200, .activeCleanup 90 [(1, 1)]),
    (time 200, .queue 1 targetX), (time 200, .rest 1)]

/-- **C246 is violated**: a connection that is killed while its thread processes it takes the place of the new one when it becomes
idle.  The next request of the thread is put on the killed connection although the thread has another to the same target; and
then more than `maxConnections` connections are open. -/
theorem http_pool_promise_refuted :
    (∃ S H, Reached 2 S H ∧ .killed 1 ∈ H ∧ Uses S 1 1 ∧ Uses S 1 2 ∧ (S.info 1).target = (S.info 2).target) ∧
    (∃ S H, Reached 2 S H ∧ Open H 2 ∧ Open H 3 ∧ Open H 4) :=
  ⟨⟨_, _, reached_run 2 (killedAtWork ++ [(time 201, .queue 1 targetX)]), by decide, .inl (by decide), .inl (by decide), by decide⟩,
    ⟨_, _, reached_run 2 (killedAtWork ++ [(time 201, .queue 2 targetY), (time 201, .queue 3 targetZ)]),
      ⟨by decide, by decide, by decide⟩, ⟨by decide, by decide, by decide⟩, ⟨by decide, by decide, by decide⟩⟩⟩

/-! ## C247: threads that wait -/

/-- **C247, as far as it holds.**  If `ActiveCleanup` never kills a connection of a thread that is in `ThreadTask`: while a thread
waits in `QueueRequest` and has not been notified, each of the `maxConnections` places is taken by an active connection or by a
thread that has been notified; and `ActiveCleanup` does not fail. -/
theorem http_pool_wakes_partial (max : Nat) (sched : List (Env × Event)) (ha : OnlyAbandoned max init sched) :
    (∀ t, Sleeps (run max init sched).1 t →
      max ≤ activeCount (run max init sched).1 + (run max init sched).1.awake.length) ∧
    .keyError ∉ (run max init sched).2 := by
  obtain ⟨q, hw⟩ := run_quiet sched (inv_init max) quiet_init (wake_init max) ha
  refine ⟨fun t ht => hw fun e => ?_, fun hx => q.ke hx⟩
  obtain ⟨g, hg⟩ := ht
  rw [e] at hg
  cases hg

/-- A thread that has been notified gets a connection when it goes on, if one of the places is not taken by an active one. -/
theorem http_pool_turn (max : Nat) (S : State) (H : List Obs) (h : Reached max S H) (E : Env) (t : Tid) (g : Target)
    (hm : (t, g) ∈ S.awake) (hl : activeCount S < max) : ∃ c, .queued t g c ∈ (step max E S (.resume t)).2 := by
  have hi := reached_inv h
  simp only [step]
  cases hwa : waiting t S.awake with
  | none => exact absurd hm (waiting_none hwa g)
  | some k =>
    have hn := hi.waitN
    rw [List.map_append, List.nodup_append] at hn
    have hk : k = g := by
      have hm' := waiting_mem hwa
      generalize S.awake = l at *
      induction l with
      | nil => cases hm
      | cons p rest ih =>
        have hn1 := hn.1
        rw [List.map_cons, List.nodup_cons] at hn1
        rcases List.mem_cons.1 hm with e1 | m1
        · rcases List.mem_cons.1 hm' with e2 | m2
          · exact congrArg (·.2) (e2.trans e1.symm)
          · exact absurd (e1 ▸ List.mem_map_of_mem (f := (·.1)) m2) hn1.1
        · rcases List.mem_cons.1 hm' with e2 | m2
          · exact absurd (e2 ▸ List.mem_map_of_mem (f := (·.1)) m1) hn1.1
          · have hne : p.1 ≠ t := fun e => hn1.1 (e ▸ List.mem_map_of_mem (f := (·.1)) m1)
            rw [waiting.eq_def] at hwa
            dsimp only at hwa
            rw [if_neg hne] at hwa
            exact ih m1 hwa ⟨hn1.2, hn.2.1, fun a ha b hb => hn.2.2 a (List.mem_cons_of_mem _ ha) b hb⟩ m2
    subst hk
    dsimp only
    have h1 := fewer_waiters hi (List.filter_sublist (p := fun w : Tid × Target => decide (w.1 ≠ t)) (l := S.awake))
      (List.Sublist.refl S.sleeping)
    have ho := search_outcome (E := E) (t := t) (g := k) h1 (Nat.lt_succ_self S.idle.length)
    generalize hr : search max E t k (S.idle.length + 1) { S with awake := S.awake.filter fun w => w.1 ≠ t } = r
    have ho : Outcome max E t k { S with awake := S.awake.filter fun w => w.1 ≠ t } r := by
      rw [← hr]
      exact ho
    cases ho with
    | found c _ => exact ⟨c, List.mem_cons_self⟩
    | reused c _ _ _ _ => exact ⟨c, List.mem_cons_self⟩
    | made _ _ _ => exact ⟨_, List.mem_cons_of_mem _ List.mem_cons_self⟩
    | replaced c _ _ _ _ _ => exact ⟨_, List.mem_cons_of_mem _ (List.mem_cons_of_mem _ List.mem_cons_self)⟩
    | busy _ _ h3 _ => exact absurd h3 (Nat.ne_of_lt hl)
    | sleep _ _ h3 _ => exact absurd h3 (Nat.ne_of_lt hl)

/-- A thread sleeps while another one has been notified. -/
theorem http_pool_wakes_hypotheses :
    OnlyAbandoned 1 init [(time 0, .queue 1 targetX), (time 0, .queue 2 targetX), (time 0, .queue 3 targetY), (time 1, .start 1),
      (time 1, .rest 1)] ∧
    ∃ S H, Reached 1 S H ∧ Woken S 2 ∧ Sleeps S 3 ∧ activeCount S < 1 := by
  refine ⟨⟨(fun _ _ h => nomatch h), ⟨(fun _ _ h => nomatch h), ⟨(fun _ _ h => nomatch h), ⟨(fun _ _ h => nomatch h),
    ⟨(fun _ _ h => nomatch h), trivial⟩⟩⟩⟩⟩, ?_⟩
  exact ⟨_, _, reached_run 1 [(time 0, .queue 1 targetX), (time 0, .queue 2 targetX), (time 0, .queue 3 targetY), (time 1, .start 1),
    (time 1, .rest 1)], ⟨targetX, by decide⟩, ⟨targetY, by decide⟩, by decide⟩

/-- **C247 is violated**: after a connection has been killed while its thread processed it, `ActiveCleanup` raises `KeyError`, and
neither kills the connections it has taken out of the pool nor wakes a thread that waits for their places. -/
theorem http_pool_wakes_refuted :
    ∃ S H, Reached 2 S H ∧ Sleeps S 4 ∧ S.awake = [] ∧ activeCount S = 1 ∧ S.idle = [] ∧ H.getLast? = some .keyError :=
  ⟨_, _, reached_run 2 (killedAtWork ++ [(time 201, .queue 2 targetY), (time 201, .queue 3 targetZ), (time 202, .queue 4 targetW),
    (time 300, .activeCleanup 90 [(3, 4), (1, 2), (2, 3)])]), ⟨targetW, by decide⟩, by decide, by decide, by decide, by decide⟩

/-! ## C248: closing -/

/-- No step queues or makes anything while the manager is closing and no thread waits. -/
theorem closed_step {max : Nat} {E : Env} {S : State} (hc : S.closing = true) (hs : S.sleeping = []) (hw : S.awake = []) (e : Event) :
    ((step max E S e).1.closing = true ∧ (step max E S e).1.sleeping = [] ∧ (step max E S e).1.awake = []) ∧
      (∀ c, .made c ∉ (step max E S e).2) ∧ ∀ t g c, .queued t g c ∉ (step max E S e).2 := by
  have same : (S.closing = true ∧ S.sleeping = [] ∧ S.awake = []) ∧ (∀ c, Obs.made c ∉ ([] : List Obs)) ∧
      ∀ t g c, Obs.queued t g c ∉ ([] : List Obs) := ⟨⟨hc, hs, hw⟩, by simp, by simp⟩
  cases e with
  | queue t g =>
    simp only [step]
    split
    · exact same
    · unfold queue
      rw [if_pos hc]
      exact ⟨⟨hc, hs, hw⟩, by simp, by simp⟩
  | resume t =>
    simp only [step]
    rw [hw, hs]
    exact same
  | start t =>
    simp only [step]
    split
    · exact same
    · exact ⟨⟨hc, hs, hw⟩, by simp, by simp⟩
  | touch t =>
    simp only [step]
    split
    · exact same
    · cases S.task t with
      | nil => exact same
      | cons c cs => exact ⟨⟨hc, hs, hw⟩, by simp, by simp⟩
  | rest t =>
    simp only [step]
    split
    · exact same
    · cases S.task t with
      | nil => exact same
      | cons c cs =>
        refine ⟨?_, by simp, by simp⟩
        dsimp only
        rw [deactivate.eq_def]
        dsimp only
        cases (S.info c).thread with
        | none => exact ⟨hc, hs, hw⟩
        | some u =>
          dsimp only
          cases find (u, (S.info c).target) S.active with
          | none => exact ⟨hc, hs, hw⟩
          | some d => simp [notify, hc, hs, hw]
  | leave t =>
    simp only [step]
    split
    · exact same
    · exact ⟨⟨hc, hs, hw⟩, by simp, by simp⟩
  | activeCleanup limit order =>
    have hp : ∀ (order : List (Tid × Conn)) (S : State), S.closing = true → S.sleeping = [] → S.awake = [] →
        (purge E limit order S).1.closing = true ∧ (purge E limit order S).1.sleeping = [] ∧ (purge E limit order S).1.awake = [] := by
      intro order
      induction order with
      | nil => exact fun S h1 h2 h3 => ⟨h1, h2, h3⟩
      | cons p rest ih =>
        obtain ⟨t, c⟩ := p
        intro S h1 h2 h3
        rw [purge.eq_def]
        dsimp only
        split
        · cases (S.info c).thread with
          | none => exact ⟨h1, h2, h3⟩
          | some u =>
            dsimp only
            cases find (u, (S.info c).target) S.active with
            | none => exact ⟨h1, h2, h3⟩
            | some d => exact ih _ h1 h2 h3
        · exact ih S h1 h2 h3
    simp only [step, activeCleanup]
    split
    · have := hp order S hc hs hw
      cases hr : purge E limit order S with
      | mk S' q =>
        obtain ⟨cs, ok⟩ := q
        rw [hr] at this
        dsimp only at this
        cases ok with
        | true => exact ⟨by simp [notify, this.1, this.2.1, this.2.2], by simp, by simp⟩
        | false => exact ⟨this, by simp, by simp⟩
    · exact same
  | idleCleanup limit => exact ⟨⟨hc, hs, hw⟩, by simp [step, idleCleanup], by simp [step, idleCleanup]⟩
  | close => exact ⟨⟨rfl, hs, hw⟩, by simp [step], by simp [step]⟩

/-- **C248, as far as it holds.**  Once the manager is closing, every new call of `QueueRequest` raises `ConnectionClosed`; and if no
thread waits then, no connection is ever made again and no request is put on one. -/
theorem http_pool_closed_partial (max : Nat) (S : State) (hc : S.closing = true) :
    (∀ E t g, ¬ Sleeps S t → ¬ Woken S t → step max E S (.queue t g) = (S, [.refused t])) ∧
    ((∀ t, ¬ Sleeps S t ∧ ¬ Woken S t) → ∀ sched, (∀ c, .made c ∉ (run max S sched).2) ∧
      ∀ t g c, .queued t g c ∉ (run max S sched).2) := by
  constructor
  · intro E t g h1 h2
    have hwt : ¬ waits S t = true := fun hx => by
      obtain ⟨k, hk⟩ := Option.isSome_iff_exists.1 hx
      rcases List.mem_append.1 (waiting_mem hk) with hk | hk
      · exact h2 ⟨k, hk⟩
      · exact h1 ⟨k, hk⟩
    simp only [step]
    rw [if_neg hwt]
    unfold queue
    rw [if_pos hc]
  · intro hn sched
    have hs : S.sleeping = [] := List.eq_nil_iff_forall_not_mem.2 fun p hp => (hn p.1).1 ⟨p.2, hp⟩
    have hw : S.awake = [] := List.eq_nil_iff_forall_not_mem.2 fun p hp => (hn p.1).2 ⟨p.2, hp⟩
    clear hn
    induction sched generalizing S with
    | nil => exact ⟨(fun _ h => nomatch h), (fun _ _ _ h => nomatch h)⟩
    | cons p rest ih =>
      obtain ⟨E, e⟩ := p
      obtain ⟨⟨h1, h2, h3⟩, h4, h5⟩ := closed_step (max := max) (E := E) hc hs hw e
      obtain ⟨h6, h7⟩ := ih _ h1 h2 h3
      refine ⟨fun c hx => ?_, fun t g c hx => ?_⟩
      · rcases List.mem_append.1 hx with hx | hx
        · exact h4 c hx
        · exact h6 c hx
      · rcases List.mem_append.1 hx with hx | hx
        · exact h5 t g c hx
        · exact h7 t g c hx

/-- A manager that is closed while a connection is active. -/
theorem http_pool_closed_hypotheses :
    ∃ S H, Reached 2 S H ∧ S.closing = true ∧ activeCount S = 1 ∧ ∀ t, ¬ Sleeps S t ∧ ¬ Woken S t := by
  refine ⟨_, _, reached_run 2 [(time 1, .queue 1 targetX), (time 2, .close)], by decide, by decide, fun t => ⟨?_, ?_⟩⟩
  · rintro ⟨g, h⟩
    exact nomatch (show (t, g) ∈ [] from h)
  · rintro ⟨g, h⟩
    exact nomatch (show (t, g) ∈ [] from h)

/-- **C248 is violated**: `Close` kills the only connection and returns, since none is left; it has woken a thread that waited, and
that thread makes a new connection. -/
theorem http_pool_closed_refuted :
    ∃ S H, Reached 1 S H ∧ S.closing = true ∧ activeCount S + S.idle.length = 0 ∧
      (step 1 (time 5) S (.resume 2)).2 = [.made 2, .queued 2 targetY 2] :=
  ⟨_, _, reached_run 1 [(time 1, .queue 1 targetX), (time 1, .queue 2 targetY), (time 2, .close), (time 2, .activeCleanup 0 [(1, 1)]),
    (time 2, .idleCleanup 0)], by decide, by decide, by decide⟩

/-! ## C249: cleaning up -/

theorem purge_stale {E : Env} {limit : Nat} : ∀ (order : List (Tid × Conn)) (S : State), ∀ c ∈ (purge E limit order S).2.1,
    (S.info c).last + limit < E.now := by
  intro order
  induction order with
  | nil => exact fun S c h => nomatch h
  | cons p rest ih =>
    obtain ⟨t, c⟩ := p
    intro S d hd
    rw [purge.eq_def] at hd
    dsimp only at hd
    split at hd
    · rename_i hs
      cases ht : (S.info c).thread with
      | none => rw [ht] at hd; cases hd
      | some u =>
        rw [ht] at hd
        dsimp only at hd
        cases hf : find (u, (S.info c).target) S.active with
        | none => rw [hf] at hd; cases hd
        | some x =>
          rw [hf] at hd
          rcases List.mem_cons.1 hd with e | hd
          · subst e
            exact of_decide_eq_true hs
          · exact ih { S with active := del (u, (S.info c).target) S.active, threads := S.threads.filter fun p => p ≠ (t, c) } d hd
    · exact ih S d hd

/-- **C249, as far as it holds.**  The cleanups only kill or close connections whose `lastActive` is longer ago than the limit; and
if no connection of a thread in `ThreadTask` has been killed before, they do so with all of them. -/
theorem http_pool_cleanup_partial (max : Nat) (S : State) (E : Env) (limit : Nat) (order : List (Tid × Conn)) (c : Conn) :
    (.killed c ∈ (step max E S (.activeCleanup limit order)).2 → (S.info c).last + limit < E.now) ∧
    (.shut c ∈ (step max E S (.idleCleanup limit)).2 ↔ c ∈ S.idle ∧ (S.info c).last + limit < E.now) ∧
    (∀ sched, (run max init sched).1 = S → OnlyAbandoned max init sched → order.Perm S.threads →
      (.killed c ∈ (step max E S (.activeCleanup limit order)).2 ↔ (∃ t, (t, c) ∈ S.threads) ∧ (S.info c).last + limit < E.now)) := by
  refine ⟨fun hk => ?_, ?_, fun sched hs ha hp => ?_⟩
  · simp only [step, activeCleanup] at hk
    split at hk
    · have := purge_stale (E := E) (limit := limit) order S c
      cases hr : purge E limit order S with
      | mk S' q =>
        obtain ⟨cs, ok⟩ := q
        rw [hr] at this hk
        cases ok with
        | true => exact this (by simpa using hk)
        | false => simp at hk
    · cases hk
  · show .shut c ∈ (S.idle.filter fun c => stale E limit (S.info c)).map Obs.shut ↔ _
    constructor
    · intro hx
      obtain ⟨d, hd, e⟩ := List.mem_map.1 hx
      cases e
      obtain ⟨h1, h2⟩ := List.mem_filter.1 hd
      exact ⟨h1, of_decide_eq_true h2⟩
    · rintro ⟨h1, h2⟩
      exact List.mem_map_of_mem (List.mem_filter.2 ⟨h1, decide_eq_true h2⟩)
  · obtain ⟨q, _⟩ := run_quiet sched (inv_init max) quiet_init (wake_init max) ha
    have h := run_inv sched (inv_init max)
    rw [hs] at h q
    obtain ⟨a, th, cs, hr, _, _, _, h3, h4⟩ := purge_quiet (E := E) (limit := limit) order h q.own (hp.nodup_iff.2 h.thrN)
      fun p hm => hp.subset hm
    simp only [step, activeCleanup]
    rw [if_pos (List.isPerm_iff.2 hp), hr]
    show .killed c ∈ cs.map Obs.killed ↔ _
    constructor
    · intro hx
      obtain ⟨d, hd, e⟩ := List.mem_map.1 hx
      cases e
      obtain ⟨t, ht, hst⟩ := h3 c hd
      exact ⟨⟨t, hp.subset ht⟩, of_decide_eq_true hst⟩
    · rintro ⟨⟨t, ht⟩, hst⟩
      exact List.mem_map_of_mem (h4 t c (hp.symm.subset ht) (decide_eq_true hst))

/-- One of two active connections is killed. -/
theorem http_pool_cleanup_hypotheses :
    ∃ S H, Reached 2 S H ∧ [((2 : Tid), (2 : Conn)), (1, 1)].Perm S.threads ∧
      (step 2 (time 100) S (.activeCleanup 50 [(2, 2), (1, 1)])).2 = [.killed 1] := by
  refine ⟨_, _, reached_run 2 [(time 1, .queue 1 targetX), (time 1, .queue 2 targetY), (time 60, .start 2), (time 60, .touch 2),
    (time 60, .leave 2)], List.isPerm_iff.1 (by decide), by decide⟩

/-- **C249 is violated**: a connection that has just been made, or that was idle for long before it was taken, counts as inactive.
`ActiveCleanup(90)` kills it in the same second in which a request has been put on it; the thread has no connection then, and its
`ThreadTask` processes nothing, so that the request stays where it is. -/
theorem http_pool_cleanup_refuted :
    ∃ S H, Reached 2 S H ∧ (step 2 (time 1000) S (.queue 1 targetX)).2 = [.made 1, .queued 1 targetX 1] ∧
      let S' := (step 2 (time 1000) S (.queue 1 targetX)).1
      (step 2 (time 1000) S' (.activeCleanup 90 [(1, 1)])).2 = [.killed 1] ∧
      let S'' := (step 2 (time 1000) S' (.activeCleanup 90 [(1, 1)])).1
      threadActiveCount S'' 1 = 0 ∧ (step 2 (time 1000) S'' (.start 1)).1.task 1 = [] :=
  ⟨init, [], ⟨[], rfl⟩, by decide, by decide, by decide, by decide⟩

end Verif.Props
