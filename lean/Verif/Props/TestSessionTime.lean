import Verif.Lemmas.TestSessionTime
import Verif.Props.TestSession
import Verif.Props.TestForm

/-!
# Test sessions: durations, keys and names
-/

set_option linter.unusedVariables false

namespace Verif.Props

open Verif Verif.TestSession Verif.Spec.TestSession

variable {σ π : Type}

/-! ## Durations -/

/-- **C89**: time spent on a question is added to its duration, to those of the sections and the part around it, and to
that of the test; no other duration changes. -/
theorem duration_added {env : Env σ π} {ids : List Str} (hf : env.form = [] :: ids) (hb : Balanced env.get ids)
    {q : Nat} {n : Node σ} (hi : ItemAt env q n) {s : State σ} {v v0 : Rat} (hv : s.dur q = some v)
    (hv0 : s.dur 0 = some v0) (dt : Rat) :
    ∃ d, addDuration env s (some q) dt = ({ s with dur := d }, none) ∧
      (∀ p, p = 0 ∨ p = q ∨ Encloses env.get env.form p q → d p = some ((s.dur p).getD 0 + dt)) ∧
      ∀ p, ¬ (p = 0 ∨ p = q ∨ Encloses env.get env.form p q) → d p = s.dur p := by
  obtain ⟨id, i1, i2, i3, i4⟩ := hi
  cases q with
  | zero =>
    rw [hf] at i1
    injection i1 with i1
    exact absurd i1.symm i2.1
  | succ q =>
    rw [hf, List.getElem?_cons_succ] at i1
    obtain ⟨hlt, hid⟩ := List.getElem?_eq_some_iff.1 i1
    have hsplit : ids = ids.take q ++ id :: ids.drop (q + 1) := by
      rw [← hid, List.getElem_cons_drop, List.take_append_drop]
    have hlen : (ids.take q).length = q := by rw [List.length_take]; omega
    have ht := addOpen_touch env.get env.form dt (ids.take q).reverse 0 (fun k => if k = q + 1 then some (v + dt) else s.dur k)
      (id :: ids.drop (q + 1)) (by rw [hf, List.reverse_reverse, ← hsplit]) (by
        intro y hy
        exact balanced_good hb y (List.mem_of_mem_take (List.mem_reverse.1 hy)))
    rw [List.length_reverse, hlen] at ht
    have henc := touch_encloses hb hsplit (by
      intro name h
      injection h with h
      exact i2.2 (by rw [h]; rfl))
    rw [hlen, ← hf] at henc
    have h0 : (0 : Nat) ∉ touch env.get (ids.take q).reverse 0 := fun h => by
      have := touch_lt _ _ _ _ h; omega
    have hq1 : q + 1 ∉ touch env.get (ids.take q).reverse 0 := fun h => by
      have := touch_lt _ _ _ _ h
      rw [List.length_reverse, hlen] at this
      omega
    refine ⟨fun p => if p = 0 then some (v0 + dt) else if p = q + 1 then some (v + dt) else
      if p ∈ touch env.get (ids.take q).reverse 0 then some ((s.dur p).getD 0 + dt) else s.dur p, ?_, ?_, ?_⟩
    · unfold addDuration
      simp only [hv, ht, h0, if_false]
      rw [if_neg (by omega), hv0]
      simp only
      congr 2
      funext p
      by_cases hp0 : p = 0
      · simp [hp0]
      · simp only [if_neg hp0]
        by_cases hpq : p = q + 1
        · subst hpq
          simp [hq1]
        · simp [if_neg hpq]
    · intro p hp
      by_cases hp0 : p = 0
      · subst hp0; simp [hv0]
      · by_cases hpq : p = q + 1
        · subst hpq; simp [hv]
        · simp only [if_neg hp0, if_neg hpq]
          rcases hp with h | h | h
          · exact absurd h hp0
          · exact absurd h hpq
          · rw [if_pos ((henc p).2 h)]
    · intro p hp
      have h1 : p ≠ 0 := fun h => hp (.inl h)
      have h2 : p ≠ q + 1 := fun h => hp (.inr (.inl h))
      have h3 : p ∉ touch env.get (ids.take q).reverse 0 := fun h => hp (.inr (.inr ((henc p).1 h)))
      simp [h1, h2, h3]

/-! ## Time over a session -/

theorem encloses_pos {get : Str → Option (Node σ)} {form : List Str} {p q : Nat} (h : Encloses get form p q) : p < q := by
  obtain ⟨_, _, _, _, _, _, _, _, _, _, _, h, _⟩ := h
  exact h

theorem presentAll_dur {env : Env σ π} {endId : Str} : ∀ {l : List Str} {j : Nat} {s s' : State σ} {o : Option SessErr},
    presentAll env endId l j s = (s', o) → ∀ p, p < j → s'.dur p = s.dur p
  | [], j, s, s', o, h, p, hp => by
    rw [presentAll] at h
    injection h with h _
    rw [h]
  | id :: rest, j, s, s', o, h, p, hp => by
    unfold presentAll at h
    split at h
    · injection h with h _; rw [h]
    · split at h
      · injection h with h _; rw [h]
      · split at h
        · exact presentAll_dur h p (by omega)
        · split at h
          · injection h with h _; rw [h]
          · split at h
            · have hd : ∀ {s1 : State σ} {o1 : Option SessErr}, presentItem env j s = (s1, o1) → s1.dur p = s.dur p := by
                intro s1 o1 h1
                unfold presentItem at h1
                split at h1
                · injection h1 with h1 _; rw [← h1]
                · injection h1 with h1 _
                  rw [← h1]
                  exact if_neg (by omega)
              split at h
              · rename_i h1
                injection h with h _
                rw [← h]
                exact hd h1
              · rename_i h1
                rw [presentAll_dur h p (by omega)]
                exact hd h1
            · exact presentAll_dur h p (by omega)

/-- Moving on changes only durations of later places. -/
theorem nextQuestion_dur {env : Env σ π} {s s' : State σ} {q : Nat} {r : Option Nat}
    (h : nextQuestion env s (some q) = (s', .ok r)) : ∀ p, p ≤ q → s'.dur p = s.dur p := by
  have key : ∀ {s s' : State σ} {i : Nat} {r : Option Nat}, Walk env s i s' r → ∀ p, p < i → s'.dur p = s.dur p := by
    intro s s' i r h
    induction h with
    | done _ => intro p _; rfl
    | close _ _ hlt _ ih => intro p hp; exact ih p (by omega)
    | skip _ _ _ _ _ ih => intro p hp; exact ih p (by omega)
    | enter _ _ _ _ _ _ _ ih => intro p hp; exact ih p (by omega)
    | enterNon _ _ _ _ _ _ hall _ ih =>
      intro p hp
      rw [ih p (by omega)]
      exact presentAll_dur hall p (by omega)
    | found _ _ _ _ _ _ hpr =>
      intro p hp
      unfold presentItem at hpr
      split at hpr
      · injection hpr with _ h; cases h
      · injection hpr with hpr _
        rw [← hpr]
        simp only
        rw [if_neg (by omega)]
  intro p hp
  cases q with
  | zero =>
    rw [nextQuestion] at h
    exact key (walk_of h) p (by omega)
  | succ q =>
    rw [nextQuestion] at h
    split at h
    · injection h with _ h; cases h
    · rename_i j hb
      have := branchTarget_lt hb
      exact key (walk_of h) p (by omega)

theorem addOpen_other (get : Str → Option (Node σ)) (form : List Str) (dt : Rat) (p : Nat) : ∀ (m k : Nat)
    (d : Nat → Option Rat), p = 0 ∨ m ≤ p → (addOpen get form dt m k d).1 p = d p
  | 0, k, d, h => rfl
  | 1, k, d, h => rfl
  | i + 2, k, d, h => by
    have hp : p = 0 ∨ i + 1 ≤ p := by omega
    unfold addOpen
    split
    · rfl
    · rfl
    · split
      · exact addOpen_other get form dt p (i + 1) _ _ hp
      · split
        · rfl
        · split
          · exact addOpen_other get form dt p (i + 1) _ _ hp
          · split
            · rw [addOpen_other get form dt p (i + 1) _ _ hp]
              exact if_neg (by omega)
            · exact addOpen_other get form dt p (i + 1) _ _ hp

theorem addDuration_self {env : Env σ π} {s st : State σ} {q : Nat} (hq : q ≠ 0) {dt : Rat}
    (h : addDuration env s (some q) dt = (st, none)) : ∃ v v0, s.dur q = some v ∧ s.dur 0 = some v0 ∧
      st.dur q = some (v + dt) ∧ st.dur 0 = some (v0 + dt) := by
  cases q with
  | zero => exact absurd rfl hq
  | succ q =>
    unfold addDuration at h
    simp only at h
    cases hv : s.dur (q + 1) with
    | none => rw [hv] at h; injection h with _ h; cases h
    | some v =>
      rw [hv] at h
      simp only at h
      have h0 := addOpen_other env.get env.form dt 0 (q + 1) 0 (fun k => if k = q + 1 then some (v + dt) else s.dur k) (.inl rfl)
      have h1 := addOpen_other env.get env.form dt (q + 1) (q + 1) 0 (fun k => if k = q + 1 then some (v + dt) else s.dur k)
        (.inr (Nat.le_refl _))
      cases ha : addOpen env.get env.form dt (q + 1) 0 (fun k => if k = q + 1 then some (v + dt) else s.dur k) with
      | mk d o =>
        rw [ha] at h h0 h1
        simp only [if_true] at h0 h1
        rw [if_neg (by omega)] at h0
        cases o with
        | some e => injection h with _ h; cases h
        | none =>
          simp only at h
          cases hd : d 0 with
          | none => rw [hd] at h; injection h with _ h; cases h
          | some v0 =>
            rw [hd] at h
            injection h with h _
            refine ⟨v, v0, rfl, by rw [← h0, hd], ?_, ?_⟩
            · rw [← h]; simp only; rw [if_neg (by omega), h1]
            · rw [← h]; simp only [if_true]

theorem showPage_keeps (env : Env σ π) (s : Sess σ) :
    (showPage env s).1.t = s.t ∧ (showPage env s).1.state.dur = s.state.dur ∧ (showPage env s).1.key = s.key := by
  unfold showPage
  split
  · exact ⟨rfl, rfl, rfl⟩
  · exact ⟨rfl, rfl, rfl⟩
  · split <;> exact ⟨rfl, rfl, rfl⟩

theorem moveOn_keeps {env : Env σ π} {s s' : Sess σ} (h : moveOn env s = (s', none)) {q : Nat} (hc : s.cur = some q) :
    s'.t = s.t ∧ s'.key = s.key ∧ (∀ p, p ≤ q → s'.state.dur p = s.state.dur p) ∧
      ∀ q', s'.cur = some q' → s'.state.dur q' = some 0 := by
  unfold moveOn at h
  split at h
  · injection h with _ h; cases h
  · rename_i st c hn
    have hk := showPage_keeps env { s with state := st, cur := c }
    have hcur := showPage_cur env { s with state := st, cur := c }
    rw [h] at hk hcur
    simp only at hk hcur
    rw [hc] at hn
    refine ⟨hk.1, hk.2.2, fun p hp => ?_, fun q' hq' => ?_⟩
    · rw [hk.2.1]; exact nextQuestion_dur hn p hp
    · rw [hcur] at hq'
      subst hq'
      obtain ⟨n, s1, _, _, _, hpr⟩ := question_eligible hn
      rw [hk.2.1]
      unfold presentItem at hpr
      split at hpr
      · injection hpr with _ h; cases h
      · injection hpr with hpr _
        rw [← hpr]
        simp

/-- What a request that is not refused does to clock and key. -/
theorem eventUpdate_ok {env : Env σ π} {s s1 : Sess σ} {key : Str} {now dt : Rat} (hk : s.key ≠ [])
    (h : eventUpdate env s key now = (s1, .ok dt)) : key = s.key ∧ dt = now - s.t ∧ s1.t = now ∧
      s1.key = env.newKey now ∧ s1.state = s.state ∧ s1.cur = s.cur ∧ s1.used = s.key :: s.used := by
  unfold eventUpdate at h
  split at h
  · split at h <;> (injection h with _ h; cases h)
  · rename_i he
    injection h with h1 h2
    injection h2 with h2
    subst h1
    exact ⟨(Decidable.not_not.1 he).symm, h2.symm, rfl, rfl, rfl, rfl, rfl⟩

/-- What a request to save or submit does to the durations up to the current place. -/
theorem step_time {env : Env σ π} {s s1 : Sess σ} {e : Event π} (hb : isBegin e = false) (hk : s.key ≠ []) {q : Nat}
    (hc : s.cur = some q) (hq : q ≠ 0) (h : step env s e = (s1, none)) :
    ∃ st, addDuration env s.state (some q) (timeOf e - s.t) = (st, none) ∧
      (∀ p, p ≤ q → s1.state.dur p = st.dur p) ∧ s1.t = timeOf e ∧ s1.key = env.newKey (timeOf e) := by
  cases q with
  | zero => exact absurd rfl hq
  | succ q =>
    cases e with
    | begin key now => cases hb
    | save key params now =>
      rw [step, saveSession] at h
      cases he : eventUpdate env s key now with
      | mk s2 x =>
        rw [he] at h
        cases x with
        | error er => injection h with _ h; cases h
        | ok dt =>
          obtain ⟨_, rfl, k3, k4, k5, k6, _⟩ := eventUpdate_ok hk he
          simp only at h
          rw [k6, k5, hc] at h
          split at h
          · injection h with _ h; cases h
          · rename_i st ha
            simp only at h
            refine ⟨st, ha, ?_⟩
            split at h
            · injection h with _ h; cases h
            · injection h with h _
              rw [← h]
              exact ⟨fun p _ => rfl, k3, k4⟩
    | submit key params now =>
      rw [step, submitSession] at h
      cases he : eventUpdate env s key now with
      | mk s2 x =>
        rw [he] at h
        cases x with
        | error er => injection h with _ h; cases h
        | ok dt =>
          obtain ⟨_, rfl, k3, k4, k5, k6, _⟩ := eventUpdate_ok hk he
          simp only at h
          rw [k6, k5, hc] at h
          split at h
          · injection h with _ h; cases h
          · rename_i st ha
            simp only at h
            refine ⟨st, ha, ?_⟩
            split at h
            · injection h with _ h; cases h
            · split at h
              · injection h with _ h; cases h
              · split at h
                · split at h
                  · split at h
                    · injection h with _ h; cases h
                    · obtain ⟨m1, m2, m3, _⟩ := moveOn_keeps h (hc := rfl)
                      exact ⟨m3, m1.trans k3, m2.trans k4⟩
                  · injection h with _ h; cases h
                · injection h with _ h; cases h

/-- **C89**: the duration of a question is the time during which it was the current question: while it is, all requests
that are handled add the time since the one before. -/
theorem question_duration {env : Env σ π} (hn : ∀ t, env.newKey t ≠ []) {q : Nat} (hq : q ≠ 0) {s s' : Sess σ}
    {es : List (Event π)} (h : During env (· = q) s es s') (hk : s.key ≠ []) {v : Rat} (hv : s.state.dur q = some v) :
    s'.state.dur q = some (v + (s'.t - s.t)) := by
  induction h generalizing v with
  | nil => rw [hv]; congr 1; grind
  | refused _ _ ih => exact ih hk hv
  | handled hb hc hP hst _ ih =>
    rename_i s0 s1 s2 e es q0 _
    subst hP
    obtain ⟨st, h1, h2, h3, h4⟩ := step_time hb hk hc hq hst
    obtain ⟨v1, v0, a1, a2, a3, a4⟩ := addDuration_self hq h1
    rw [hv] at a1
    injection a1 with a1
    subst a1
    rw [ih (h4 ▸ hn _) (by rw [h2 _ (Nat.le_refl _)]; exact a3), h3]
    congr 1
    grind

/-- **C89**: the duration of the test is the time during which there was a current question. -/
theorem test_duration {env : Env σ π} (hn : ∀ t, env.newKey t ≠ []) {s s' : Sess σ}
    {es : List (Event π)} (h : During env (· ≠ 0) s es s') (hk : s.key ≠ []) {v : Rat} (hv : s.state.dur 0 = some v) :
    s'.state.dur 0 = some (v + (s'.t - s.t)) := by
  induction h generalizing v with
  | nil => rw [hv]; congr 1; grind
  | refused _ _ ih => exact ih hk hv
  | handled hb hc hP hst _ ih =>
    rename_i s0 s1 s2 e es q0 _
    obtain ⟨st, h1, h2, h3, h4⟩ := step_time hb hk hc hP hst
    obtain ⟨v1, v0, a1, a2, a3, a4⟩ := addDuration_self hP h1
    rw [hv] at a2
    injection a2 with a2
    subst a2
    rw [ih (h4 ▸ hn _) (by rw [h2 _ (Nat.zero_le _)]; exact a4), h3]
    congr 1
    grind

/-- **C89**: a session that begins starts counting: the duration of the test is zero, and so is that of the first
question. -/
theorem begin_duration {env : Env σ π} {s s' : Sess σ} (hk : s.key ≠ []) {key : Str} {now : Rat} (hc : s.cur = some 0)
    (h : step env s (.begin key now) = (s', none)) :
    s'.t = now ∧ s'.state.dur 0 = some 0 ∧ ∀ q, s'.cur = some q → s'.state.dur q = some 0 := by
  rw [step, beginSession] at h
  cases he : eventUpdate env s key now with
  | mk s2 x =>
    rw [he] at h
    cases x with
    | error er => injection h with _ h; cases h
    | ok dt =>
      obtain ⟨_, rfl, k3, k4, k5, k6, _⟩ := eventUpdate_ok hk he
      simp only at h
      obtain ⟨m1, m2, m3, m4⟩ := moveOn_keeps h (q := 0) (k6.trans hc)
      exact ⟨m1.trans k3, by rw [m3 0 (Nat.le_refl _)]; rfl, m4⟩

/-- **C89**: and the duration of a question that comes after a submission starts at zero. -/
theorem submit_duration {env : Env σ π} {s s' : Sess σ} (hk : s.key ≠ []) {key : Str} {params : π} {now : Rat} {q : Nat}
    (hc : s.cur = some q) (hq : q ≠ 0) (h : step env s (.submit key params now) = (s', none)) :
    ∀ q', s'.cur = some q' → s'.state.dur q' = some 0 := by
  cases q with
  | zero => exact absurd rfl hq
  | succ q =>
    rw [step, submitSession] at h
    cases he : eventUpdate env s key now with
    | mk s2 x =>
      rw [he] at h
      cases x with
      | error er => injection h with _ h; cases h
      | ok dt =>
        obtain ⟨_, rfl, k3, k4, k5, k6, _⟩ := eventUpdate_ok hk he
        simp only at h
        rw [k6, k5, hc] at h
        split at h
        · injection h with _ h; cases h
        · simp only at h
          split at h
          · injection h with _ h; cases h
          · split at h
            · injection h with _ h; cases h
            · split at h
              · split at h
                · split at h
                  · injection h with _ h; cases h
                  · exact (moveOn_keeps h (hc := rfl)).2.2.2
                · injection h with _ h; cases h
              · injection h with _ h; cases h

/-! ## Keys -/

theorem eventUpdate_refused (env : Env σ π) (s : Sess σ) {key : Str} (h : key ≠ s.key) (now : Rat) :
    eventUpdate env s key now = (s, .error (if key ∈ s.used then .keyExpired else .keyMismatch)) := by
  unfold eventUpdate
  rw [if_pos (fun e => h e.symm)]
  split <;> rfl

/-- **C90**: a request that does not present the key of the session is refused, and changes nothing. -/
theorem wrong_key_refused (env : Env σ π) (s : Sess σ) (e : Event π) (h : keyOf e ≠ s.key) :
    step env s e = (s, some (if keyOf e ∈ s.used then .keyExpired else .keyMismatch)) := by
  cases e with
  | begin key now => rw [step, beginSession, eventUpdate_refused env s (key := key) h]; rfl
  | save key params now => rw [step, saveSession, eventUpdate_refused env s (key := key) h]; rfl
  | submit key params now => rw [step, submitSession, eventUpdate_refused env s (key := key) h]; rfl

theorem moveOn_keys (env : Env σ π) (s : Sess σ) : (moveOn env s).1.key = s.key ∧ (moveOn env s).1.used = s.used := by
  unfold moveOn
  split
  · exact ⟨rfl, rfl⟩
  · unfold showPage
    split
    · exact ⟨rfl, rfl⟩
    · exact ⟨rfl, rfl⟩
    · split <;> exact ⟨rfl, rfl⟩

theorem moveOn_keys' (env : Env σ π) {s t : Sess σ} (h1 : t.key = s.key) (h2 : t.used = s.used) :
    (moveOn env t).1.key = s.key ∧ (moveOn env t).1.used = s.used := by
  rw [← h1, ← h2]
  exact moveOn_keys env t

/-- A request that presents the key of the session makes it a used one, and there is a new one. -/
theorem right_key_used (env : Env σ π) (s : Sess σ) (hk : s.key ≠ []) (e : Event π) (h : keyOf e = s.key) :
    (step env s e).1.key = env.newKey (timeOf e) ∧ (step env s e).1.used = s.key :: s.used := by
  have hu : ∀ key now, key = s.key → eventUpdate env s key now =
      ({ s with used := s.key :: s.used, prevKey := s.key, t := now, key := env.newKey now }, .ok (now - s.t)) := by
    intro key now h
    unfold eventUpdate
    rw [if_neg (fun e => e h.symm), if_neg hk]
  cases e with
  | begin key now =>
    rw [step, beginSession, hu key now h]
    exact moveOn_keys' env rfl rfl
  | save key params now =>
    rw [step, saveSession, hu key now h]
    simp only
    split
    · exact ⟨rfl, rfl⟩
    · split
      · exact ⟨rfl, rfl⟩
      · exact ⟨rfl, rfl⟩
      · split <;> exact ⟨rfl, rfl⟩
  | submit key params now =>
    rw [step, submitSession, hu key now h]
    simp only
    split
    · exact ⟨rfl, rfl⟩
    · split
      · exact ⟨rfl, rfl⟩
      · exact ⟨rfl, rfl⟩
      · split
        · exact ⟨rfl, rfl⟩
        · split
          · exact ⟨rfl, rfl⟩
          · split
            · split
              · split
                · exact ⟨rfl, rfl⟩
                · exact moveOn_keys' env rfl rfl
              · exact ⟨rfl, rfl⟩
            · exact ⟨rfl, rfl⟩

/-- What is known of the keys, when the keys so far are among `seen`. -/
structure Keys (s : Sess σ) (seen : List Str) : Prop where
  key : s.key ∈ seen
  nonempty : s.key ≠ []
  used : ∀ k ∈ s.used, k ∈ seen
  fresh : s.key ∉ s.used

theorem keys_step {env : Env σ π} (hn : ∀ t, env.newKey t ≠ []) {s : Sess σ} {seen : List Str} (h : Keys s seen)
    (e : Event π) (hnew : env.newKey (timeOf e) ∉ seen) : Keys (step env s e).1 (seen ++ [env.newKey (timeOf e)]) := by
  by_cases hk : keyOf e = s.key
  · obtain ⟨h1, h2⟩ := right_key_used env s h.nonempty e hk
    refine ⟨by rw [h1]; simp, by rw [h1]; exact hn _, ?_, ?_⟩
    · rw [h2]
      intro k hk
      rcases List.mem_cons.1 hk with rfl | hk
      · exact List.mem_append_left _ h.key
      · exact List.mem_append_left _ (h.used k hk)
    · rw [h1, h2]
      intro hm
      rcases List.mem_cons.1 hm with e | hm
      · exact hnew (e ▸ h.key)
      · exact hnew (h.used _ hm)
  · rw [wrong_key_refused env s e hk]
    exact ⟨List.mem_append_left _ h.key, h.nonempty, fun k hk => List.mem_append_left _ (h.used k hk), h.fresh⟩

theorem keys_after {env : Env σ π} (hn : ∀ t, env.newKey t ≠ []) : ∀ (es : List (Event π)) (s : Sess σ)
    (seen : List Str), Keys s seen → (seen ++ es.map fun e => env.newKey (timeOf e)).Nodup →
    Keys (after env s es) (seen ++ es.map fun e => env.newKey (timeOf e))
  | [], s, seen, h, _ => by simpa [after] using h
  | e :: es, s, seen, h, hd => by
    rw [after]
    have hassoc : seen ++ (e :: es).map (fun e => env.newKey (timeOf e)) =
        (seen ++ [env.newKey (timeOf e)]) ++ es.map fun e => env.newKey (timeOf e) := by simp
    rw [hassoc] at hd ⊢
    refine keys_after hn es _ _ (keys_step hn h e ?_) hd
    intro hm
    exact (List.nodup_append.1 (List.nodup_append.1 hd).1).2.2 _ hm _ (List.mem_singleton.2 rfl) rfl

theorem accepted_used {env : Env σ π} (hn : ∀ t, env.newKey t ≠ []) : ∀ (es : List (Event π)) (s : Sess σ),
    s.key ≠ [] → (∀ k ∈ accepted env s es, k ∈ (after env s es).used) ∧ ∀ k ∈ s.used, k ∈ (after env s es).used
  | [], s, _ => ⟨by simp [accepted], fun k h => h⟩
  | e :: es, s, hk => by
    rw [accepted, after]
    by_cases h : keyOf e = s.key
    · rw [if_pos h]
      obtain ⟨h1, h2⟩ := right_key_used env s hk e h
      obtain ⟨a, b⟩ := accepted_used hn es (step env s e).1 (by rw [h1]; exact hn _)
      refine ⟨?_, fun k hm => b k (by rw [h2]; exact List.mem_cons_of_mem _ hm)⟩
      intro k hm
      rcases List.mem_cons.1 hm with rfl | hm
      · exact b _ (by rw [h2, h]; exact List.mem_cons_self ..)
      · exact a k hm
    · rw [if_neg h, wrong_key_refused env s e h]
      exact accepted_used hn es s hk

theorem init_keys {env : Env σ π} (hn : ∀ t, env.newKey t ≠ []) (store : σ) (now : Rat) :
    Keys (TestSession.init env store now) [env.newKey now] := by
  refine ⟨?_, ?_, ?_, ?_⟩ <;> simp [TestSession.init, eventUpdate, hn]

/-- **C90**: whatever requests came before, a key that was accepted once is refused as expired, and the request changes
nothing; as long as the times of the requests give different keys. -/
theorem key_once {env : Env σ π} (hn : ∀ t, env.newKey t ≠ []) (store : σ) (now : Rat) (es : List (Event π))
    (hd : (env.newKey now :: es.map fun e => env.newKey (timeOf e)).Nodup) (e : Event π)
    (he : keyOf e ∈ accepted env (TestSession.init env store now) es) :
    step env (after env (TestSession.init env store now) es) e =
      (after env (TestSession.init env store now) es, some .keyExpired) := by
  have h1 := keys_after hn es _ _ (init_keys hn store now) hd
  have h2 := (accepted_used hn es _ (init_keys hn store now).nonempty).1 _ he
  rw [wrong_key_refused env _ e (fun h => h1.fresh (h ▸ h2)), if_pos h2]

/-- **C90**: and the keys accepted in a session are different. -/
theorem keys_distinct {env : Env σ π} (hn : ∀ t, env.newKey t ≠ []) (store : σ) (now : Rat) (es : List (Event π))
    (hd : (env.newKey now :: es.map fun e => env.newKey (timeOf e)).Nodup) :
    (accepted env (TestSession.init env store now) es).Nodup := by
  have key : ∀ (es : List (Event π)) (s : Sess σ) (seen : List Str), Keys s seen →
      (seen ++ es.map fun e => env.newKey (timeOf e)).Nodup →
      (accepted env s es).Nodup ∧ ∀ k ∈ accepted env s es, k ∉ s.used := by
    intro es
    induction es with
    | nil => intro s seen _ _; simp [accepted]
    | cons e es ih =>
      intro s seen h hd
      have hassoc : seen ++ (e :: es).map (fun e => env.newKey (timeOf e)) =
          (seen ++ [env.newKey (timeOf e)]) ++ es.map fun e => env.newKey (timeOf e) := by simp
      rw [hassoc] at hd
      have hnew : env.newKey (timeOf e) ∉ seen := by
        intro hm
        exact (List.nodup_append.1 (List.nodup_append.1 hd).1).2.2 _ hm _ (by simp) rfl
      obtain ⟨a, b⟩ := ih _ _ (keys_step hn h e hnew) hd
      rw [accepted]
      by_cases hk : keyOf e = s.key
      · rw [if_pos hk]
        obtain ⟨h1, h2⟩ := right_key_used env s h.nonempty e hk
        rw [h2] at b
        refine ⟨List.nodup_cons.2 ⟨fun hm => b _ hm (by rw [hk]; exact List.mem_cons_self ..), a⟩, ?_⟩
        intro k hm
        rcases List.mem_cons.1 hm with rfl | hm
        · rw [hk]; exact h.fresh
        · exact fun hu => b k hm (List.mem_cons_of_mem _ hu)
      · rw [if_neg hk]
        rw [wrong_key_refused env s e hk] at a b ⊢
        exact ⟨a, b⟩
  exact (key es _ _ (init_keys hn store now) hd).1

/-- What can go wrong with **C90**: keys are made from the time, so a request handled at the same time as the one before
leaves the key as it was, and it is accepted again. -/
theorem key_reused (env : Env σ π) (s : Sess σ) (hk : s.key ≠ []) (e : Event π) (h : keyOf e = s.key)
    (ht : env.newKey (timeOf e) = s.key) : (step env s e).1.key = s.key :=
  (right_key_used env s hk e h).1.trans ht

/-! ## Names -/

theorem splitDot_none {name : Str} (h : splitDot name = none) : '.' ∉ name := by
  induction name with
  | nil => simp
  | cons c cs ih =>
    rw [splitDot] at h
    split at h
    · cases h
    · rename_i hc
      cases hs : splitDot cs with
      | none =>
        intro hm
        rcases List.mem_cons.1 hm with e | hm
        · exact hc e.symm
        · exact ih hs hm
      | some x => rw [hs] at h; cases h

theorem splitDot_some {name a b : Str} (h : splitDot name = some (a, b)) : name = a ++ '.' :: b ∧ '.' ∉ a := by
  induction name generalizing a b with
  | nil => cases h
  | cons c cs ih =>
    rw [splitDot] at h
    split at h
    · rename_i hc
      injection h with h
      injection h with h1 h2
      subst h1 h2 hc
      exact ⟨rfl, by simp⟩
    · rename_i hc
      cases hs : splitDot cs with
      | none => rw [hs] at h; cases h
      | some x =>
        obtain ⟨a', b'⟩ := x
        rw [hs] at h
        injection h with h
        injection h with h1 h2
        subst h1 h2
        obtain ⟨e1, e2⟩ := ih hs
        refine ⟨by rw [e1]; rfl, ?_⟩
        intro hm
        rcases List.mem_cons.1 hm with e | hm
        · exact hc e.symm
        · exact e2 hm

theorem splitDot_append {a b : Str} (h : '.' ∉ a) : splitDot (a ++ '.' :: b) = some (a, b) := by
  induction a with
  | nil => rw [List.nil_append, splitDot, if_pos rfl]
  | cons c cs ih =>
    rw [List.cons_append, splitDot, if_neg (fun e => h (by rw [e]; exact List.mem_cons_self ..)),
      ih (fun hm => h (List.mem_cons_of_mem _ hm))]

theorem splitDot_plain {a : Str} (h : '.' ∉ a) : splitDot a = none := by
  induction a with
  | nil => rfl
  | cons c cs ih =>
    rw [splitDot, if_neg (fun e => h (by rw [e]; exact List.mem_cons_self ..)), ih (fun hm => h (List.mem_cons_of_mem _ hm))]

/-- **C92**: a name without a full stop is one of the test. -/
theorem name_of_test (components : Verif.TestForm.Slots) {name : Str} (h : '.' ∉ name) :
    getNamespace components name = .ok (0, name) := by
  unfold getNamespace
  rw [splitDot_plain h]

/-- **C92**: a name after an identifier is one of the first place that has the identifier. -/
theorem name_of_first (components : Verif.TestForm.Slots) {id name : Str} (h : '.' ∉ id) {i : Nat}
    (hi : components[i]? = some (some id)) (hfirst : ∀ j : Nat, j < i → components[j]? ≠ some (some id)) :
    getNamespace components (id ++ '.' :: name) = .ok (i, name) := by
  unfold getNamespace
  rw [splitDot_append h]
  simp only
  obtain ⟨h1, h2⟩ := form_find components id
  have hm := (h2 i).2 hi
  cases hf : Verif.TestForm.find components id with
  | nil => rw [hf] at hm; simp at hm
  | cons j js =>
    rw [hf] at hm h1
    rcases List.mem_cons.1 hm with rfl | hm
    · rfl
    · have hlt := (List.pairwise_cons.1 h1).1 i hm
      exact absurd ((h2 j).1 (by rw [hf]; exact List.mem_cons_self ..)) (hfirst j hlt)

/-- **C92**: a name after an identifier that has no place is an error. -/
theorem name_unknown (components : Verif.TestForm.Slots) {id name : Str} (h : '.' ∉ id)
    (hi : ∀ j : Nat, components[j]? ≠ some (some id)) :
    getNamespace components (id ++ '.' :: name) = .error .keyError := by
  unfold getNamespace
  rw [splitDot_append h]
  simp only
  obtain ⟨h1, h2⟩ := form_find components id
  cases hf : Verif.TestForm.find components id with
  | nil => rfl
  | cons j js => exact absurd ((h2 j).1 (by rw [hf]; exact List.mem_cons_self ..)) (hi j)

/-! ## Forms are balanced -/

mutual
/-- The identifiers of a section or item are known to the test as what they are. -/
def Known (get : Str → Option (Node σ)) : Verif.TestForm.Part → Prop
  | .item id _ _ => Plain id ∧ ∃ n, get id = some n ∧ n.kind = .item
  | .sect id _ _ _ _ _ _ kids => (Plain id ∧ ∃ n, get id = some n ∧ n.kind ≠ .item) ∧ KnownAll get kids
/-- The same for a list. -/
def KnownAll (get : Str → Option (Node σ)) : List Verif.TestForm.Part → Prop
  | [] => True
  | p :: ps => Known get p ∧ KnownAll get ps
end

theorem knownAll_mem {get : Str → Option (Node σ)} : ∀ {kids : List Verif.TestForm.Part} {k}, KnownAll get kids → k ∈ kids →
    Known get k
  | p :: ps, k, h, hm => by
    rw [KnownAll] at h
    rcases List.mem_cons.1 hm with rfl | hm
    · exact h.1
    · exact knownAll_mem h.2 hm

theorem balanced_append {get : Str → Option (Node σ)} {u v : List Str} (hu : Balanced get u) (hv : Balanced get v) :
    Balanced get (u ++ v) := by
  induction hu with
  | nil => exact hv
  | item hp hg hk _ ih => exact .item hp hg hk ih
  | group hp hg hk hin _ _ ih =>
    rw [List.append_assoc, List.cons_append (a := closing _)]
    exact .group hp hg hk hin ih

theorem balanced_flatten {get : Str → Option (Node σ)} : ∀ {l : List (List Str)}, (∀ w ∈ l, Balanced get w) →
    Balanced get l.flatten
  | [], _ => .nil
  | w :: l, h => by
    rw [List.flatten_cons]
    exact balanced_append (h w (List.mem_cons_self ..)) (balanced_flatten fun x hx => h x (List.mem_cons_of_mem _ hx))

open Verif.Spec.TestForm in
theorem whole_balanced {get : Str → Option (Node σ)} {kid : Verif.TestForm.Part} {w : List Str} (h : Whole kid w) :
    Known get kid → Balanced get w := by
  refine Whole.rec (motive_1 := fun kid w _ => Known get kid → Balanced get w)
    (motive_2 := fun kid pieces _ => Known get kid → ∀ x ∈ pieces, Balanced get x)
    (motive_3 := fun sh kids blocks fs pool _ => (∀ k ∈ kids, Known get k) →
      (∀ x ∈ pool, Balanced get x) ∧ ((∀ x ∈ fs, Balanced get x) → ∀ x ∈ blocks.flatten, Balanced get x))
    ?_ ?_ ?_ ?_ ?_ ?_ ?_ h
  · intro id rq fx hk
    rw [Known] at hk
    obtain ⟨hp, n, hg, hkd⟩ := hk
    exact .item hp hg hkd .nil
  · intro id rq fx v k s sh kids pieces _ ih hk
    have hk' := hk
    rw [Known] at hk'
    obtain ⟨⟨hp, n, hg, hkd⟩, _⟩ := hk'
    exact .group hp hg hkd (balanced_flatten (ih hk)) .nil
  · intro id rq fx v k s sh kids sel blocks floating pool hr _ hperm ih hk
    rw [Known] at hk
    obtain ⟨h1, h2⟩ := ih (fun k hm => by
      obtain ⟨i, _, hi⟩ := List.mem_filterMap.1 hm
      exact knownAll_mem hk.2 (List.mem_of_getElem? hi))
    exact h2 (fun x hx => h1 x (hperm.mem_iff.1 hx))
  · intro sh _
    exact ⟨by simp, by simp⟩
  · intro sh kid kids w blocks fs pool _ _ _ ih1 ih2 hk
    obtain ⟨h1, h2⟩ := ih2 (fun k hm => hk k (List.mem_cons_of_mem _ hm))
    refine ⟨h1, fun hfs x hx => ?_⟩
    rw [List.flatten_cons] at hx
    rcases List.mem_append.1 hx with hx | hx
    · rw [List.mem_singleton.1 hx]
      exact ih1 (hk kid (List.mem_cons_self ..))
    · exact h2 hfs x hx
  · intro kid kids w b blocks fs pool _ _ _ _ _ ih1 ih2 hk
    obtain ⟨h1, h2⟩ := ih2 (fun k hm => hk k (List.mem_cons_of_mem _ hm))
    refine ⟨?_, fun hfs x hx => ?_⟩
    · intro x hx
      rcases List.mem_cons.1 hx with rfl | hx
      · exact ih1 (hk kid (List.mem_cons_self ..))
      · exact h1 x hx
    · rw [List.flatten_cons] at hx
      rcases List.mem_append.1 hx with hx | hx
      · exact hfs x (List.mem_append_left _ hx)
      · exact h2 (fun y hy => hfs y (List.mem_append_right _ hy)) x hx
  · intro kid kids q b blocks fs pool _ _ _ _ _ ih1 ih2 hk
    obtain ⟨h1, h2⟩ := ih2 (fun k hm => hk k (List.mem_cons_of_mem _ hm))
    refine ⟨?_, fun hfs x hx => ?_⟩
    · intro x hx
      rcases List.mem_append.1 hx with hx | hx
      · exact ih1 (hk kid (List.mem_cons_self ..)) x hx
      · exact h1 x hx
    · rw [List.flatten_cons] at hx
      rcases List.mem_append.1 hx with hx | hx
      · exact hfs x (List.mem_append_left _ hx)
      · exact h2 (fun y hy => hfs y (List.mem_append_right _ hy)) x hx

theorem sections_balanced {get : Str → Option (Node σ)} {ss : List Verif.TestForm.Part} {ids : List Str}
    (h : Verif.Spec.TestForm.Sections ss ids) : (∀ s ∈ ss, Known get s) → Balanced get ids := by
  induction h with
  | nil => intro _; exact .nil
  | cons hw _ ih =>
    intro hk
    exact balanced_append (whole_balanced hw (hk _ (List.mem_cons_self ..)))
      (ih fun s hs => hk s (List.mem_cons_of_mem _ hs))

/-- **C89**: the forms of a test are such: every section and part that begins ends. -/
theorem form_balanced {get : Str → Option (Node σ)} {test : List Verif.TestForm.TPart} {ids : List Str}
    (h : Verif.Spec.TestForm.Parts test ids) (hp : ∀ p ∈ test, Plain p.id ∧ ∃ n, get p.id = some n ∧ n.kind ≠ .item)
    (hk : ∀ p ∈ test, ∀ s ∈ p.sections, Known get s) : Balanced get ids := by
  induction h with
  | nil => exact .nil
  | cons hs _ ih =>
    obtain ⟨h1, n, h2, h3⟩ := hp _ (List.mem_cons_self ..)
    refine balanced_append ?_ (ih (fun p hm => hp p (List.mem_cons_of_mem _ hm)) (fun p hm => hk p (List.mem_cons_of_mem _ hm)))
    exact .group h1 h2 h3 (sections_balanced hs (hk _ (List.mem_cons_self ..))) .nil

/-! ## Examples -/

/-- A node of the example. -/
def jumpNode (k : Kind) (part : String) (branch : List (Cond Nat × Str)) : Node Nat := ⟨k, true, true, part.toList, [], branch⟩

/-- The rules of the first question: where they go depends on the store. -/
def jumpRules : List (Cond Nat × Str) :=
  [(fun s => .ok (s.store == 1), "Q3".toList), (fun s => .ok (s.store == 2), "EXIT_SECTION".toList),
   (fun s => .ok (s.store == 3), "EXIT_TESTPART".toList), (fun s => .ok (s.store == 4), "Q4".toList)]

/-- Two parts, a section of three questions in the first and one question in the second. -/
def jumpGet : Str → Option (Node Nat) := fun id =>
  if id = "P".toList then some (jumpNode .part "P" [])
  else if id = "R".toList then some (jumpNode .part "R" [])
  else if id = "S".toList then some (jumpNode .sect "P" [])
  else if id = "Q1".toList then some (jumpNode .item "P" jumpRules)
  else if id = "Q2".toList then some (jumpNode .item "P" [])
  else if id = "Q3".toList then some (jumpNode .item "P" [])
  else if id = "Q4".toList then some (jumpNode .item "R" [])
  else none

/-- The session. -/
def jumpEnv : Env Nat Nat where
  form := ["", "P", "S", "Q1", "Q2", "Q3", "-S", "-P", "R", "Q4", "-R"].map String.toList
  get := jumpGet
  defaults := id
  present := fun _ s => (s, none)
  attempt := fun _ s => (s, none)
  save := fun _ p _ => (p, none)
  submit := fun _ p _ => (p, none)
  newKey := fun t => 'k' :: List.replicate t.num.toNat 'x'

theorem jumpEnv_item : jumpEnv.form[0]? = some [] ∧ ItemAt jumpEnv 3 (jumpNode .item "P" jumpRules) :=
  ⟨rfl, "Q1".toList, rfl, by decide, rfl, rfl⟩

/-- Each of the rules is in effect in some state; the last has a target in another part. -/
theorem jumpRules_inEffect (d : Nat → Option Rat) :
    InEffect (jumpNode .item "P" jumpRules) ⟨1, d⟩ "Q3".toList ∧
    InEffect (jumpNode .item "P" jumpRules) ⟨2, d⟩ "EXIT_SECTION".toList ∧
    InEffect (jumpNode .item "P" jumpRules) ⟨3, d⟩ "EXIT_TESTPART".toList ∧
    InEffect (jumpNode .item "P" jumpRules) ⟨4, d⟩ "Q4".toList := by
  refine ⟨⟨[], _, _, rfl, ?_, rfl⟩, ⟨[_], _, _, rfl, ?_, rfl⟩, ⟨[_, _], _, _, rfl, ?_, rfl⟩, ⟨[_, _, _], _, _, rfl, ?_, rfl⟩⟩ <;>
    intro d hd <;> simp at hd
  · subst hd; rfl
  · rcases hd with rfl | rfl <;> rfl
  · rcases hd with rfl | rfl | rfl <;> rfl

theorem jump_from (s : State Nat) : nextFrom jumpEnv s 5 = (⟨s.store, fun k => if k = 5 then some 0 else s.dur k⟩, .ok (some 5)) ∧
    nextFrom jumpEnv s 8 = (⟨s.store, fun k => if k = 9 then some 0 else s.dur k⟩, .ok (some 9)) ∧
    nextFrom jumpEnv s 7 = (⟨s.store, fun k => if k = 9 then some 0 else s.dur k⟩, .ok (some 9)) := by
  have h9 : nextFrom jumpEnv s 9 = (⟨s.store, fun k => if k = 9 then some 0 else s.dur k⟩, .ok (some 9)) := by
    rw [nextFrom]; rfl
  have h8 : nextFrom jumpEnv s 8 = nextFrom jumpEnv s 9 := by
    conv => lhs; rw [nextFrom]
    rfl
  have h7 : nextFrom jumpEnv s 7 = nextFrom jumpEnv s 8 := by
    conv => lhs; rw [nextFrom]
    rfl
  refine ⟨?_, ?_, ?_⟩
  · rw [nextFrom]; rfl
  · rw [h8, h9]
  · rw [h7, h8, h9]

/-- Where the first question goes: to the third, out of the section (nothing is left of the part), out of the part, and
an error. -/
theorem jumpEnv_goes (d : Nat → Option Rat) :
    (nextQuestion jumpEnv ⟨1, d⟩ (some 3)).2.toOption = some (some 5) ∧
    (nextQuestion jumpEnv ⟨2, d⟩ (some 3)).2.toOption = some (some 9) ∧
    (nextQuestion jumpEnv ⟨3, d⟩ (some 3)).2.toOption = some (some 9) ∧
    nextQuestion jumpEnv ⟨4, d⟩ (some 3) = (⟨4, d⟩, .error .processing) := by
  have b1 : branchTarget jumpEnv ⟨1, d⟩ 3 = .ok 5 := rfl
  have b2 : branchTarget jumpEnv ⟨2, d⟩ 3 = .ok 7 := rfl
  have b3 : branchTarget jumpEnv ⟨3, d⟩ 3 = .ok 8 := rfl
  have b4 : branchTarget jumpEnv ⟨4, d⟩ 3 = .error .processing := rfl
  rw [nextQuestion_pos (by decide), b1, nextQuestion_pos (by decide), b2, nextQuestion_pos (by decide), b3,
    nextQuestion_pos (by decide), b4]
  refine ⟨?_, ?_, ?_, rfl⟩
  · simp only; rw [(jump_from _).1]; rfl
  · simp only; rw [(jump_from _).2.2]; rfl
  · simp only; rw [(jump_from _).2.1]; rfl

/-- The form of the example is balanced, so its durations are as **C89** says; the section and its part are around the
first question, the second part is not. -/
theorem jumpEnv_balanced : ∃ ids, jumpEnv.form = [] :: ids ∧ Balanced jumpEnv.get ids ∧
    Encloses jumpEnv.get jumpEnv.form 1 3 ∧ Encloses jumpEnv.get jumpEnv.form 2 3 ∧ ¬ Encloses jumpEnv.get jumpEnv.form 8 3 := by
  have hs : Balanced jumpGet (["Q1", "Q2", "Q3"].map String.toList) := by
    refine .item (n := jumpNode .item "P" jumpRules) (by decide) rfl rfl ?_
    refine .item (n := jumpNode .item "P" []) (by decide) rfl rfl ?_
    exact .item (n := jumpNode .item "P" []) (by decide) rfl rfl .nil
  have hp : Balanced jumpGet (["S", "Q1", "Q2", "Q3", "-S"].map String.toList) :=
    .group (id := "S".toList) (n := jumpNode .sect "P" []) (rest := []) (by decide) rfl (by decide) hs .nil
  refine ⟨_, rfl, ?_, ?_, ?_, fun h => by have := encloses_pos h; omega⟩
  · refine .group (id := "P".toList) (n := jumpNode .part "P" []) (by decide) rfl (by decide) hp ?_
    refine .group (id := "R".toList) (n := jumpNode .part "R" []) (inner := ["Q4".toList]) (rest := []) (by decide) rfl
      (by decide) ?_ .nil
    exact .item (n := jumpNode .item "R" []) (by decide) rfl rfl .nil
  · exact ⟨["".toList], "P".toList, _, _, _, rfl, by decide, rfl, by decide, hp, rfl, by decide, by decide⟩
  · exact ⟨["".toList, "P".toList], "S".toList, _, _, _, rfl, by decide, rfl, by decide, hs, rfl, by decide, by decide⟩

theorem jump_first (s : State Nat) : nextFrom jumpEnv s 1 = (⟨s.store, fun k => if k = 3 then some 0 else s.dur k⟩, .ok (some 3)) := by
  have h3 : nextFrom jumpEnv s 3 = (⟨s.store, fun k => if k = 3 then some 0 else s.dur k⟩, .ok (some 3)) := by
    rw [nextFrom]; rfl
  have h2 : nextFrom jumpEnv s 2 = nextFrom jumpEnv s 3 := by
    conv => lhs; rw [nextFrom]
    rfl
  have h1 : nextFrom jumpEnv s 1 = nextFrom jumpEnv s 2 := by
    conv => lhs; rw [nextFrom]
    rfl
  rw [h1, h2, h3]

/-- A session: it begins, the first question is submitted after a time of 3, the one of the second part comes; the same
key again is refused. -/
theorem jumpEnv_session : ∃ s1 s2 : Sess Nat,
    step jumpEnv (TestSession.init jumpEnv 0 1) (.begin "kx".toList 2) = (s1, none) ∧ s1.cur = some 3 ∧
    step jumpEnv s1 (.submit "kxx".toList 3 5) = (s2, none) ∧ s2.cur = some 9 ∧ s2.state.dur 3 = some 3 ∧
    s2.state.dur 2 = some 3 ∧ s2.state.dur 0 = some 3 ∧
    step jumpEnv s2 (.submit "kxx".toList 3 6) = (s2, some .keyExpired) := by
  have h1 : step jumpEnv (TestSession.init jumpEnv 0 1) (.begin "kx".toList 2) =
      (⟨⟨0, fun k => if k = 3 then some 0 else if k = 0 then some 0 else none⟩, some 3, 2, "kxx".toList, "kx".toList, ["kx".toList]⟩, none) := by
    rw [step, beginSession]
    have e1 : eventUpdate jumpEnv (TestSession.init jumpEnv 0 1) "kx".toList 2 =
      (⟨⟨0, fun _ => none⟩, some 0, 2, "kxx".toList, "kx".toList, ["kx".toList]⟩, .ok (2 - 1)) := rfl
    rw [e1]
    simp only [moveOn, nextQuestion, jump_first]
    rfl
  let d0 : State Nat := ⟨0, fun k => if k = 3 then some 0 else if k = 0 then some 0 else none⟩
  let st := (addDuration jumpEnv d0 (some 3) (5 - 2)).1
  have ha : addDuration jumpEnv d0 (some 3) (5 - 2) = (st, none) := rfl
  have h2 : step jumpEnv ⟨d0, some 3, 2, "kxx".toList, "kx".toList, ["kx".toList]⟩ (.submit "kxx".toList 3 5) =
      (⟨⟨3, fun k => if k = 9 then some 0 else st.dur k⟩, some 9, 5, "kxxxxx".toList, "kxx".toList, ["kxx".toList, "kx".toList]⟩, none) := by
    rw [step, submitSession]
    have e2 : eventUpdate jumpEnv ⟨d0, some 3, 2, "kxx".toList, "kx".toList, ["kx".toList]⟩ "kxx".toList 5 =
      (⟨d0, some 3, 5, "kxxxxx".toList, "kxx".toList, ["kxx".toList, "kx".toList]⟩, .ok (5 - 2)) := rfl
    rw [e2]
    simp only [ha]
    have hf : jumpEnv.form[2 + 1]? = some "Q1".toList := rfl
    have hg : jumpEnv.get "Q1".toList = some (jumpNode .item "P" jumpRules) := rfl
    have hs : jumpEnv.submit (2 + 1) 3 st.store = (3, none) := rfl
    simp only [hf, hg, hs]
    have hb : branchTarget jumpEnv ⟨3, st.dur⟩ 3 = .ok 8 := rfl
    have hm : ∀ x : Sess Nat, x.state = ⟨3, st.dur⟩ → x.cur = some 3 → moveOn jumpEnv x =
        ({ x with state := ⟨3, fun k => if k = 9 then some 0 else st.dur k⟩, cur := some 9 }, none) := by
      intro x h3 h4
      rw [moveOn, h3, h4, nextQuestion_pos (by decide), hb]
      simp only
      rw [(jump_from _).2.1]
      rfl
    have := hm ⟨⟨3, st.dur⟩, some 3, 5, "kxxxxx".toList, "kxx".toList, ["kxx".toList, "kx".toList]⟩ rfl rfl
    exact this
  exact ⟨_, _, h1, rfl, h2, rfl, by decide +kernel, by decide +kernel, by decide +kernel,
    wrong_key_refused jumpEnv _ _ (by decide +kernel)⟩

end Verif.Props
