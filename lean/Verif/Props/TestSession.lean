import Verif.Lemmas.TestSession

/-!
# Test sessions: going through the questions
-/

set_option linter.unusedVariables false

namespace Verif.Props

open Verif Verif.TestSession Verif.Spec.TestSession

variable {σ π : Type}

/-! ## Forward -/

theorem notBack_refl : ∀ a, NotBack a a
  | none => trivial
  | some x => Nat.le_refl x

theorem notBack_trans : ∀ {a b c}, NotBack a b → NotBack b c → NotBack a c
  | some x, some y, some z, h1, h2 => Nat.le_trans h1 h2
  | some x, some y, none, h1, h2 => trivial
  | some x, none, some z, h1, h2 => h2.elim
  | some x, none, none, h1, h2 => trivial
  | none, some y, _, h1, h2 => h1.elim
  | none, none, some z, h1, h2 => h2.elim
  | none, none, none, h1, h2 => trivial

theorem eventUpdate_keeps (env : Env σ π) (s : Sess σ) (key : Str) (now : Rat) :
    (eventUpdate env s key now).1.cur = s.cur ∧ (eventUpdate env s key now).1.state = s.state := by
  unfold eventUpdate
  split
  · split <;> exact ⟨rfl, rfl⟩
  · split <;> exact ⟨rfl, rfl⟩

theorem branchTarget_lt {env : Env σ π} {s : State σ} {q j : Nat} (h : branchTarget env s q = .ok j) : q < j := by
  by_cases hq : q < env.form.length
  · exact branchTarget_gt hq h
  · unfold branchTarget at h
    rw [List.getElem?_eq_none (by omega)] at h
    cases h

/-- Moving on goes to a later question, or to the end. -/
theorem nextQuestion_forward {env : Env σ π} {s s' : State σ} {q : Nat} {r : Option Nat}
    (h : nextQuestion env s (some q) = (s', .ok r)) : ∀ q', r = some q' → q < q' := by
  intro q' hr
  cases q with
  | zero =>
    rw [nextQuestion] at h
    have := (walk_of h).ge q' hr
    omega
  | succ q =>
    rw [nextQuestion] at h
    split at h
    · injection h with _ h; cases h
    · rename_i j hb
      have h1 := branchTarget_lt hb
      have h2 := (walk_of h).ge q' hr
      omega

theorem showPage_cur (env : Env σ π) (s : Sess σ) : (showPage env s).1.cur = s.cur := by
  unfold showPage
  split
  · rfl
  · rfl
  · split <;> simp_all

theorem moveOn_cur (env : Env σ π) (s : Sess σ) : NotBack s.cur (moveOn env s).1.cur := by
  unfold moveOn
  split
  · exact notBack_refl _
  · rename_i st c h
    rw [showPage_cur]
    cases hc : s.cur with
    | none =>
      rw [hc, nextQuestion] at h
      injection h with _ h
      injection h with h
      rw [← h]
      trivial
    | some q =>
      rw [hc] at h
      cases c with
      | none => trivial
      | some q' => exact Nat.le_of_lt (nextQuestion_forward h q' rfl)

theorem moveOn_same (env : Env σ π) {s t : Sess σ} (h : t.cur = s.cur) : NotBack s.cur (moveOn env t).1.cur :=
  h ▸ moveOn_cur env t

theorem step_forward (env : Env σ π) (s : Sess σ) (e : Event π) : NotBack s.cur (step env s e).1.cur := by
  cases e with
  | begin key now =>
    rw [step, beginSession]
    have hk := eventUpdate_keeps env s key now
    cases h : eventUpdate env s key now with
    | mk s1 x =>
      rw [h] at hk
      cases x with
      | error e => exact hk.1 ▸ notBack_refl _
      | ok dt =>
        have := moveOn_cur env { s1 with state := ⟨env.defaults s1.state.store, fun k => if k = 0 then some 0 else s1.state.dur k⟩ }
        rw [← hk.1]
        exact this
  | save key params now =>
    rw [step, saveSession]
    have hk := eventUpdate_keeps env s key now
    cases h : eventUpdate env s key now with
    | mk s1 x =>
      rw [h] at hk
      simp only at hk
      rw [← hk.1]
      cases x with
      | error e => exact notBack_refl _
      | ok dt =>
        simp only
        cases ha : addDuration env s1.state s1.cur dt with
        | mk st y =>
          cases y with
          | some e => exact notBack_refl _
          | none =>
            simp only
            split
            · rename_i hc; exact notBack_refl _
            · exact notBack_refl _
            · split <;> exact notBack_refl _
  | submit key params now =>
    rw [step, submitSession]
    have hk := eventUpdate_keeps env s key now
    cases h : eventUpdate env s key now with
    | mk s1 x =>
      rw [h] at hk
      simp only at hk
      rw [← hk.1]
      cases x with
      | error e => exact notBack_refl _
      | ok dt =>
        simp only
        cases ha : addDuration env s1.state s1.cur dt with
        | mk st y =>
          cases y with
          | some e => exact notBack_refl _
          | none =>
            simp only
            split
            · exact notBack_refl _
            · exact notBack_refl _
            · split
              · exact notBack_refl _
              · split
                · exact notBack_refl _
                · split
                  · split
                    · split
                      · exact notBack_refl _
                      · exact moveOn_same env rfl
                    · exact notBack_refl _
                  · exact notBack_refl _

/-- **C86**: whatever requests come, a session never goes back to an earlier question, and once over it stays over. -/
theorem session_forward (env : Env σ π) (s : Sess σ) (events : List (Event π)) :
    ((s :: history env s events).map (·.cur)).Pairwise NotBack := by
  have key : ∀ (events : List (Event π)) (s : Sess σ), (∀ x ∈ history env s events, NotBack s.cur x.cur) ∧
      ((s :: history env s events).map (·.cur)).Pairwise NotBack := by
    intro events
    induction events with
    | nil => intro s; simp [history]
    | cons e es ih =>
      intro s
      obtain ⟨h1, h2⟩ := ih (step env s e).1
      have h0 := step_forward env s e
      have h3 : ∀ x ∈ history env s (e :: es), NotBack s.cur x.cur := by
        intro x hx
        rw [history] at hx
        rcases List.mem_cons.1 hx with rfl | hx
        · exact h0
        · exact notBack_trans h0 (h1 x hx)
      refine ⟨h3, ?_⟩
      rw [List.map_cons, List.pairwise_cons]
      constructor
      · intro c hc
        obtain ⟨x, hx, rfl⟩ := List.mem_map.1 hc
        exact h3 x hx
      · rw [history]; exact h2
  exact (key events s).2

/-- **C86**: a submission that raises nothing leaves the question for a later one, or ends the test. -/
theorem submit_advances (env : Env σ π) (s s' : Sess σ) (q : Nat) (key : Str) (params : π) (now : Rat)
    (hc : s.cur = some q) (hq : q ≠ 0) (h : step env s (.submit key params now) = (s', none)) :
    s'.cur = none ∨ ∃ q', s'.cur = some q' ∧ q < q' := by
  cases q with
  | zero => exact absurd rfl hq
  | succ q =>
    rw [step, submitSession] at h
    have hk := eventUpdate_keeps env s key now
    cases he : eventUpdate env s key now with
    | mk s1 x =>
      rw [he] at hk h
      simp only at hk h
      rw [hc] at hk
      cases x with
      | error e => injection h with _ h; cases h
      | ok dt =>
        simp only [hk.1] at h
        split at h
        · injection h with _ h; cases h
        · split at h
          · injection h with _ h; cases h
          · split at h
            · injection h with _ h; cases h
            · split at h
              · split at h
                · split at h
                  · injection h with _ h; cases h
                  · unfold moveOn at h
                    split at h
                    · injection h with _ h; cases h
                    · rename_i st' c hn
                      have h1 := congrArg (fun x => x.1.cur) h
                      simp only [showPage_cur] at h1
                      rw [← h1]
                      cases c with
                      | none => exact .inl rfl
                      | some q' => exact .inr ⟨q', rfl, nextQuestion_forward hn q' rfl⟩
                · injection h with _ h; cases h
              · injection h with _ h; cases h

/-! ## The question that comes -/

/-- **C87**: a question that comes is an item of the form, and its pre-conditions were true just before it was
begun. -/
theorem question_eligible {env : Env σ π} {s s' : State σ} {cur : Option Nat} {q : Nat}
    (h : nextQuestion env s cur = (s', .ok (some q))) :
    ∃ n s1, ItemAt env q n ∧ n.linear = true ∧ Eligible n s1 ∧ presentItem env q s1 = (s', none) := by
  cases cur with
  | none =>
    rw [nextQuestion] at h
    injection h with _ h; injection h with h; cases h
  | some c =>
    cases c with
    | zero =>
      rw [nextQuestion] at h
      exact (walk_of h).found_item q rfl
    | succ c =>
      rw [nextQuestion] at h
      split at h
      · injection h with _ h; cases h
      · exact (walk_of h).found_item q rfl

/-- Nothing but the pre-conditions of items has a say: all parts are linear, no branch rule is in effect, and the
pre-conditions of parts and sections are true. -/
structure Quiet (env : Env σ π) (s : State σ) : Prop where
  linear : ∀ id n, env.get id = some n → n.linear = true
  branch : ∀ id n, env.get id = some n → NoBranch n s
  open_ : ∀ id n, env.get id = some n → n.kind ≠ .item → Eligible n s

theorem branchTarget_quiet {env : Env σ π} {s : State σ} (hq : Quiet env s) {i j : Nat}
    (h : branchTarget env s i = .ok j) : j = i + 1 := by
  unfold branchTarget at h
  split at h
  · cases h
  · cases h
  · split at h
    · cases h
    · rename_i n hn
      rw [getBranchTarget_none (hq.branch _ n hn)] at h
      injection h with h
      exact h.symm

theorem walk_quiet {env : Env σ π} {s s' : State σ} {i : Nat} {r : Option Nat} (h : Walk env s i s' r)
    (hq : Quiet env s) : (∀ k n, i ≤ k → (∀ q, r = some q → k < q) → ItemAt env k n → Barred n s) ∧
      ∀ q, r = some q → ∃ n, ItemAt env q n ∧ Eligible n s := by
  induction h with
  | done hl =>
    refine ⟨?_, by intro q h; cases h⟩
    intro k n hk _ hit
    obtain ⟨id, h1, _⟩ := hit
    rw [List.getElem?_eq_none (by omega)] at h1
    cases h1
  | close hf hb hlt _ ih =>
    obtain ⟨h1, h2⟩ := ih hq
    have := branchTarget_quiet hq hb
    subst this
    refine ⟨?_, h2⟩
    intro k n hk hr hit
    rename_i s0 i0 name _ _ _
    by_cases he : k = i0
    · have : ¬ ItemAt env i0 n := by
        rintro ⟨id, h3, h4, _⟩
        rw [hf] at h3
        injection h3 with h3
        subst h3
        exact h4.2 rfl
      exact absurd (he ▸ hit) this
    · exact h1 k n (by omega) hr hit
  | skip hf hp hg hc _ ih =>
    rename_i s0 i0 id n0 _ _ _
    obtain ⟨h1, h2⟩ := ih hq
    refine ⟨?_, h2⟩
    intro k n hk hr hit
    by_cases he : k = i0
    · subst he
      obtain ⟨id', h3, h4, h5, h6⟩ := hit
      rw [hf] at h3
      injection h3 with h3
      subst h3
      rw [hg] at h5
      injection h5 with h5
      subst h5
      exact checkPre_false (.inr (hq.linear _ _ hg)) hc
    · exact h1 k n (by omega) hr hit
  | enter hf hp hg hc hk0 hl _ ih =>
    rename_i s0 i0 id n0 _ _ _
    obtain ⟨h1, h2⟩ := ih hq
    refine ⟨?_, h2⟩
    intro k n hk hr hit
    by_cases he : k = i0
    · subst he
      obtain ⟨id', h3, h4, h5, h6⟩ := hit
      rw [hf] at h3
      injection h3 with h3
      subst h3
      rw [hg] at h5
      injection h5 with h5
      subst h5
      exact absurd h6 hk0
    · exact h1 k n (by omega) hr hit
  | enterNon hf hp hg hc hk0 hl =>
    have := hq.linear _ _ hg
    rw [this] at hl
    cases hl
  | found hf hp hg hc hk hl hpr =>
    refine ⟨?_, ?_⟩
    · intro k n hk1 hr _
      have := hr _ rfl
      omega
    · intro q h
      injection h with h
      subst h
      exact ⟨_, ⟨_, hf, hp, hg, hk⟩, (checkPre_true hc).2⟩

/-- **C87**, when only the pre-conditions of items have a say: the question that comes is the first later item whose
pre-conditions are true; if none comes there is no such item. -/
theorem next_question_partial {env : Env σ π} {s s' : State σ} {c : Nat} {r : Option Nat} (hq : Quiet env s)
    (h : nextQuestion env s (some c) = (s', .ok r)) :
    (∀ k n, c < k → (∀ q, r = some q → k < q) → ItemAt env k n → Barred n s) ∧
    ∀ q, r = some q → c < q ∧ ∃ n, ItemAt env q n ∧ Eligible n s := by
  have key : Walk env s (c + 1) s' r := by
    cases c with
    | zero =>
      rw [nextQuestion] at h
      exact walk_of h
    | succ c =>
      rw [nextQuestion] at h
      split at h
      · injection h with _ h; cases h
      · rename_i j hb
        have := branchTarget_quiet hq hb
        subst this
        exact walk_of h
  obtain ⟨h1, h2⟩ := walk_quiet key hq
  exact ⟨fun k n hk hr hit => h1 k n hk hr hit, fun q hr => ⟨nextQuestion_forward h q hr, h2 q hr⟩⟩

/-- The components of the form are known, and their conditions can be evaluated. -/
structure Sound (env : Env σ π) (s : State σ) : Prop where
  known : ∀ i id, 1 ≤ i → env.form[i]? = some id → ∃ n, env.get (bare id) = some n ∧ bare id ≠ []
  decided : ∀ id n, env.get id = some n → Eligible n s ∨ Barred n s
  begins : ∀ i st, (env.present i st).2 = none

theorem branchTarget_quiet_ok {env : Env σ π} {s : State σ} (hq : Quiet env s) (hs : Sound env s) {i : Nat}
    (h1 : 1 ≤ i) (hi : i < env.form.length) : branchTarget env s i = .ok (i + 1) := by
  obtain ⟨n, hn, hb⟩ := hs.known i _ h1 (List.getElem?_eq_getElem hi)
  unfold branchTarget
  rw [List.getElem?_eq_getElem hi]
  cases hf : env.form[i] with
  | nil => rw [hf] at hb; exact absurd rfl hb
  | cons c name =>
    rw [hf] at hn
    simp only [hn, getBranchTarget_none (hq.branch _ n hn)]

theorem nextFrom_ok {env : Env σ π} {s : State σ} (hq : Quiet env s) (hs : Sound env s) : ∀ (k i : Nat),
    env.form.length - i ≤ k → 1 ≤ i → ∃ s' r, nextFrom env s i = (s', .ok r) := by
  intro k
  induction k with
  | zero =>
    intro i hk _
    rw [nextFrom, dif_neg (by omega)]
    exact ⟨_, _, rfl⟩
  | succ k ih =>
    intro i hk h1
    rw [nextFrom]
    by_cases hi : i < env.form.length
    · rw [dif_pos hi]
      obtain ⟨n, hn, hb⟩ := hs.known i _ h1 (List.getElem?_eq_getElem hi)
      split
      · rename_i hf; rw [hf] at hb; exact absurd rfl hb
      · rename_i c name hf
        rw [hf] at hn
        split
        · split
          · rename_i e he
            rw [branchTarget_quiet_ok hq hs h1 hi] at he
            cases he
          · rename_i j hj
            rw [branchTarget_quiet_ok hq hs h1 hi] at hj
            injection hj with hj
            subst hj
            exact ih (i + 1) (by omega) (by omega)
        · rename_i hc
          have hbare : bare (c :: name) = c :: name := by simp [bare, hc]
          rw [hbare] at hn
          rw [hn]
          simp only
          have hl := hq.linear _ _ hn
          have hpre : (checkPre n s = .ok true) ∨ (checkPre n s = .ok false) := by
            rcases hs.decided _ _ hn with h | ⟨a, d, b, h2, h3, h4⟩
            · exact .inl (checkPre_of_eligible (.inr hl) h)
            · right
              unfold checkPre
              rw [if_neg (by simp [hl]), h2]
              exact conds_of_false h3 h4
          rcases hpre with hp | hp
          · rw [hp]
            simp only
            cases hk : n.kind with
            | part => simp only [hl, if_true]; exact ih (i + 1) (by omega) (by omega)
            | sect => simp only; exact ih (i + 1) (by omega) (by omega)
            | item =>
              simp only [hl, if_true]
              unfold presentItem
              have := hs.begins i s.store
              cases hpr : env.present i s.store with
              | mk st o =>
                rw [hpr] at this
                simp only at this
                subst this
                exact ⟨_, _, rfl⟩
          · rw [hp]
            exact ih (i + 1) (by omega) (by omega)
    · rw [dif_neg hi]
      exact ⟨_, _, rfl⟩

/-- **C87**, the same case: the session does move on, when the components are known, the conditions can be evaluated
and the items can be begun. -/
theorem next_question_total {env : Env σ π} {s : State σ} (hq : Quiet env s) (hs : Sound env s) (c : Nat)
    (hc : c < env.form.length) : ∃ s' r, nextQuestion env s (some c) = (s', .ok r) := by
  cases c with
  | zero => exact nextFrom_ok hq hs _ 1 (Nat.le_refl _) (by omega)
  | succ c =>
    rw [nextQuestion, branchTarget_quiet_ok hq hs (by omega) hc]
    exact nextFrom_ok hq hs _ _ (Nat.le_refl _) (by omega)

/-- What goes wrong with **C87**: pre-conditions of sections and test parts have no effect; where one is false the
contents are asked as if it were true. -/
theorem section_precondition_ignored {env : Env σ π} {s : State σ} {i : Nat} {id : Str} {n : Node σ}
    (hf : env.form[i]? = some id) (hp : Plain id) (hg : env.get id = some n) (hk : n.kind ≠ .item)
    (hl : n.linear = true) (hb : Barred n s) : nextFrom env s i = nextFrom env s (i + 1) := by
  obtain ⟨hi, he⟩ := List.getElem?_eq_some_iff.1 hf
  conv => lhs; rw [nextFrom]
  rw [dif_pos hi]
  split
  · rename_i h0; rw [he] at h0; exact absurd h0 hp.1
  · rename_i c name h0
    rw [he] at h0
    subst h0
    rw [if_neg (by intro e; subst e; exact hp.2 rfl), hg]
    simp only
    have : checkPre n s = .ok false := by
      obtain ⟨a, d, b, h2, h3, h4⟩ := hb
      unfold checkPre
      rw [if_neg (by simp [hl]), h2]
      exact conds_of_false h3 h4
    rw [this]

/-! ## An example -/

/-- Its nodes: a linear test part with a section of two items, the first with a pre-condition on the store, and the
second with a branch rule. -/
def navGet : Str → Option (Node Nat) := fun id =>
  if id = "P".toList then some ⟨.part, true, true, "P".toList, [], []⟩
  else if id = "S".toList then some ⟨.sect, true, true, "P".toList, [], []⟩
  else if id = "Q1".toList then some ⟨.item, true, true, "P".toList, [fun s => .ok (s.store == 1)], []⟩
  else if id = "Q2".toList then
    some ⟨.item, true, true, "P".toList, [], [(fun s => .ok (s.store == 7), "EXIT_TEST".toList)]⟩
  else none

/-- The session. -/
def navEnv : Env Nat Nat where
  form := ["", "P", "S", "Q1", "Q2", "-S", "-P"].map String.toList
  get := navGet
  defaults := id
  present := fun _ s => (s, none)
  attempt := fun _ s => (s, none)
  save := fun _ p _ => (p, none)
  submit := fun _ p _ => (p, none)
  newKey := fun t => (toString t.num).toList

theorem navGet_some {id : Str} {n : Node Nat} (h : navGet id = some n) :
    (id = "P".toList ∧ n = ⟨.part, true, true, "P".toList, [], []⟩) ∨
    (id = "S".toList ∧ n = ⟨.sect, true, true, "P".toList, [], []⟩) ∨
    (id = "Q1".toList ∧ n = ⟨.item, true, true, "P".toList, [fun s => .ok (s.store == 1)], []⟩) ∨
    (id = "Q2".toList ∧ n = ⟨.item, true, true, "P".toList, [], [(fun s => .ok (s.store == 7), "EXIT_TEST".toList)]⟩) := by
  unfold navGet at h
  split at h
  · rename_i he; injection h with h; exact .inl ⟨he, h.symm⟩
  · split at h
    · rename_i he; injection h with h; exact .inr (.inl ⟨he, h.symm⟩)
    · split at h
      · rename_i he; injection h with h; exact .inr (.inr (.inl ⟨he, h.symm⟩))
      · split at h
        · rename_i he; injection h with h; exact .inr (.inr (.inr ⟨he, h.symm⟩))
        · cases h

/-- In this state only the pre-condition of the first item has a say, and everything can be evaluated. -/
theorem navEnv_quiet : Quiet navEnv ⟨0, fun _ => none⟩ ∧ Sound navEnv ⟨0, fun _ => none⟩ := by
  refine ⟨⟨?_, ?_, ?_⟩, ⟨?_, ?_, ?_⟩⟩
  · intro id n h
    rcases navGet_some h with ⟨_, rfl⟩ | ⟨_, rfl⟩ | ⟨_, rfl⟩ | ⟨_, rfl⟩ <;> rfl
  · intro id n h
    rcases navGet_some h with ⟨_, rfl⟩ | ⟨_, rfl⟩ | ⟨_, rfl⟩ | ⟨_, rfl⟩ <;> intro d hd <;> simp at hd
    subst hd
    rfl
  · intro id n h hk
    rcases navGet_some h with ⟨_, rfl⟩ | ⟨_, rfl⟩ | ⟨_, rfl⟩ | ⟨_, rfl⟩
    · intro c hc; simp at hc
    · intro c hc; simp at hc
    · exact absurd rfl hk
    · exact absurd rfl hk
  · intro i id h1 hf
    match i, h1, hf with
    | 1, _, hf => injection hf with hf; subst hf; exact ⟨_, rfl, by decide⟩
    | 2, _, hf => injection hf with hf; subst hf; exact ⟨_, rfl, by decide⟩
    | 3, _, hf => injection hf with hf; subst hf; exact ⟨_, rfl, by decide⟩
    | 4, _, hf => injection hf with hf; subst hf; exact ⟨_, rfl, by decide⟩
    | 5, _, hf => injection hf with hf; subst hf; exact ⟨_, rfl, by decide⟩
    | 6, _, hf => injection hf with hf; subst hf; exact ⟨_, rfl, by decide⟩
    | n + 7, _, hf => simp [navEnv] at hf
  · intro id n h
    rcases navGet_some h with ⟨_, rfl⟩ | ⟨_, rfl⟩ | ⟨_, rfl⟩ | ⟨_, rfl⟩
    · left; intro c hc; simp at hc
    · left; intro c hc; simp at hc
    · right; exact ⟨[], _, [], rfl, by simp, rfl⟩
    · left; intro c hc; simp at hc
  · intro i st; rfl

/-! ## Branch rules -/

instance (id : Str) : Decidable (Plain id) := by unfold Plain; infer_instance

theorem itemAt_pos {env : Env σ π} (h0 : env.form[0]? = some []) {q : Nat} {n : Node σ} (h : ItemAt env q n) : q ≠ 0 := by
  rintro rfl
  obtain ⟨id, h1, h2, _⟩ := h
  rw [h0] at h1
  injection h1 with h1
  exact h2.1 h1.symm

theorem branchTarget_item {env : Env σ π} {s : State σ} {q : Nat} {n : Node σ} {t : Str} (hi : ItemAt env q n)
    (hl : n.linear = true) (hr : InEffect n s t) : branchTarget env s q = match checkTarget env.get n t with
      | .error e => .error e
      | .ok none => .ok (q + 1)
      | .ok (some t) => if t = "EXIT_TEST".toList then .ok env.form.length
        else scan env.get t (env.form.drop (q + 1)) (q + 1) := by
  obtain ⟨id, h1, h2, h3, h4⟩ := hi
  unfold branchTarget
  rw [h1]
  cases id with
  | nil => exact absurd rfl h2.1
  | cons c name =>
    have hbare : bare (c :: name) = c :: name := by
      have : c ≠ '-' := fun e => h2.2 (by rw [e]; rfl)
      simp [bare, this]
    simp only [hbare, h3, getBranchTarget_some hl hr]
    rfl

theorem nextQuestion_pos {env : Env σ π} {s : State σ} {q : Nat} (hq : q ≠ 0) :
    nextQuestion env s (some q) = match branchTarget env s q with
      | .error e => (s, .error e)
      | .ok j => nextFrom env s j := by
  cases q with
  | zero => exact absurd rfl hq
  | succ q => rw [nextQuestion]; rfl

/-- **C88**: `EXIT_TEST` ends the test. -/
theorem branch_exit_test {env : Env σ π} {s : State σ} {q : Nat} {n : Node σ} (h0 : env.form[0]? = some [])
    (hi : ItemAt env q n) (hl : n.linear = true) (hr : InEffect n s "EXIT_TEST".toList) :
    nextQuestion env s (some q) = (s, .ok none) := by
  have hc : checkTarget env.get n "EXIT_TEST".toList = .ok (some "EXIT_TEST".toList) := by
    obtain ⟨_, _, _, _, hk⟩ := hi
    unfold checkTarget
    rw [if_neg (by rw [hk]; decide), if_pos (.inr (.inr rfl))]
  rw [nextQuestion_pos (itemAt_pos h0 hi), branchTarget_item hi hl hr, hc]
  simp only [if_true]
  rw [nextFrom, dif_neg (by omega)]

theorem drop_get (form : List Str) (q k : Nat) : (form.drop (q + 1))[k]? = form[q + 1 + k]? := by
  rw [List.getElem?_drop]

/-- **C88**: a rule in effect that names a section or item of the same part goes to the next place it has in the form:
what comes is not before it, and it comes itself if it is an item whose pre-conditions are true; if it has no place
after the question the test is over. -/
theorem branch_named {env : Env σ π} {s s' : State σ} {q : Nat} {n m : Node σ} {t : Str} {r : Option Nat}
    (h0 : env.form[0]? = some []) (hi : ItemAt env q n) (hl : n.linear = true) (hr : InEffect n s t)
    (ht : t ≠ "EXIT_SECTION".toList ∧ t ≠ "EXIT_TESTPART".toList ∧ t ≠ "EXIT_TEST".toList)
    (hm : env.get t = some m) (hmk : m.kind ≠ .part) (hmp : m.partId = n.partId)
    (h : nextQuestion env s (some q) = (s', .ok r)) :
    (∃ p, FirstAfter (fun i => env.form[i]? = some t) q p ∧ (∀ q', r = some q' → p ≤ q') ∧
      (ItemAt env p m → m.linear = true → Eligible m s → r = some p)) ∨
    ((∀ p, q < p → env.form[p]? ≠ some t) ∧ r = none) := by
  have hc : checkTarget env.get n t = .ok (some t) := by
    obtain ⟨_, _, _, _, hk⟩ := hi
    unfold checkTarget
    rw [if_neg (by rw [hk]; decide), if_neg (fun h => h.elim ht.1 (fun h => h.elim ht.2.1 ht.2.2)), hm]
    simp only
    rw [if_neg hmk, if_pos hmp]
  rw [nextQuestion_pos (itemAt_pos h0 hi), branchTarget_item hi hl hr, hc] at h
  simp only [if_neg ht.2.2] at h
  cases hs : scan env.get t (env.form.drop (q + 1)) (q + 1) with
  | error e => rw [hs] at h; injection h with _ h; cases h
  | ok j =>
    rw [hs] at h
    simp only at h
    obtain ⟨k, k1, k2, k3, k4⟩ := scan_named env.get ht.1 ht.2.1 _ _ _ hs
    have hw := walk_of h
    by_cases hk : k < (env.form.drop (q + 1)).length
    · left
      have hp := k4 hk
      rw [drop_get] at hp
      refine ⟨j, ⟨by omega, by rw [k1]; exact hp, ?_⟩, fun q' hq' => hw.ge q' hq', ?_⟩
      · intro i h1 h2
        have := k3 (i - (q + 1)) (by omega)
        rw [drop_get] at this
        rw [show q + 1 + (i - (q + 1)) = i by omega] at this
        exact this
      · intro hit hlm he
        obtain ⟨id, i1, i2, i3, i4⟩ := hit
        have hcp := checkPre_of_eligible (.inr hlm) he
        have fwd : ∀ {s1 : State σ} {i0 : Nat} {s2 : State σ} {r0 : Option Nat}, Walk env s1 i0 s2 r0 → i0 = j → s1 = s →
            r0 = some j := by
          intro s1 i0 s2 r0 hw hi0 hs1
          cases hw with
          | done hd =>
            subst hi0
            rw [List.getElem?_eq_none (by omega)] at i1
            cases i1
          | close hf =>
            subst hi0
            rw [i1] at hf
            injection hf with hf
            subst hf
            exact absurd rfl i2.2
          | skip hf _ hg hcf =>
            subst hi0; subst hs1
            rw [i1] at hf; injection hf with hf; subst hf
            rw [i3] at hg; injection hg with hg; subst hg
            rw [hcp] at hcf
            cases hcf
          | enter hf _ hg _ hkd =>
            subst hi0; subst hs1
            rw [i1] at hf; injection hf with hf; subst hf
            rw [i3] at hg; injection hg with hg; subst hg
            exact absurd i4 hkd
          | enterNon hf _ hg _ hkd =>
            subst hi0; subst hs1
            rw [i1] at hf; injection hf with hf; subst hf
            rw [i3] at hg; injection hg with hg; subst hg
            rw [i4] at hkd
            cases hkd
          | found => rw [hi0]
        exact fwd hw rfl rfl
    · right
      have hke : k = (env.form.drop (q + 1)).length := by omega
      refine ⟨?_, ?_⟩
      · intro p hp hpf
        have hlt : p < env.form.length := (List.getElem?_eq_some_iff.1 hpf).1
        have := k3 (p - (q + 1)) (by rw [hke, List.length_drop]; omega)
        rw [drop_get, show q + 1 + (p - (q + 1)) = p by omega] at this
        exact this hpf
      · have hq : q < env.form.length := by
          obtain ⟨_, i1, _⟩ := hi
          exact (List.getElem?_eq_some_iff.1 i1).1
        rw [List.length_drop] at hke
        cases r with
        | none => rfl
        | some q' =>
          obtain ⟨n', _, ⟨_, i1, _⟩, _⟩ := hw.found_item q' rfl
          have := (List.getElem?_eq_some_iff.1 i1).1
          have := hw.ge q' rfl
          omega

/-- At this place a test part ends. -/
def PartEnds (env : Env σ π) (i : Nat) : Prop :=
  ∃ name n, env.form[i]? = some ('-' :: name) ∧ env.get name = some n ∧ n.kind = .part

/-- **C88**: `EXIT_TESTPART` goes past the end of the test part. -/
theorem branch_exit_testPart {env : Env σ π} {s s' : State σ} {q : Nat} {n : Node σ} {r : Option Nat}
    (h0 : env.form[0]? = some []) (hid : "EXIT_TESTPART".toList ∉ env.form) (hi : ItemAt env q n)
    (hl : n.linear = true) (hr : InEffect n s "EXIT_TESTPART".toList)
    (h : nextQuestion env s (some q) = (s', .ok r)) :
    (∃ p, FirstAfter (PartEnds env) q p ∧ ∀ q', r = some q' → p < q') ∨
    ((∀ p, q < p → ¬ PartEnds env p) ∧ r = none) := by
  have hc : checkTarget env.get n "EXIT_TESTPART".toList = .ok (some "EXIT_TESTPART".toList) := by
    obtain ⟨_, _, _, _, hk⟩ := hi
    unfold checkTarget
    rw [if_neg (by rw [hk]; decide), if_pos (.inr (.inl rfl))]
  rw [nextQuestion_pos (itemAt_pos h0 hi), branchTarget_item hi hl hr, hc] at h
  simp only [if_neg (show ¬ "EXIT_TESTPART".toList = "EXIT_TEST".toList by decide)] at h
  cases hs : scan env.get "EXIT_TESTPART".toList (env.form.drop (q + 1)) (q + 1) with
  | error e => rw [hs] at h; injection h with _ h; cases h
  | ok j =>
    rw [hs] at h
    simp only at h
    have hw := walk_of h
    have hq : q < env.form.length := by
      obtain ⟨_, i1, _⟩ := hi
      exact (List.getElem?_eq_some_iff.1 i1).1
    rcases scan_testPart env.get _ _ _ (fun id hm e => hid (e ▸ List.mem_of_mem_drop hm)) hs with ⟨h3, h4⟩ | ⟨k, name, m, h3, h4, h5, h6, h7⟩
    · right
      rw [List.length_drop] at h3
      refine ⟨?_, ?_⟩
      · rintro p hp ⟨name, m, e1, e2, e3⟩
        refine h4 (p - (q + 1)) name m ?_ e2 e3
        rw [drop_get, show q + 1 + (p - (q + 1)) = p by omega]
        exact e1
      · cases r with
        | none => rfl
        | some q' =>
          obtain ⟨n', _, ⟨_, i1, _⟩, _⟩ := hw.found_item q' rfl
          have := (List.getElem?_eq_some_iff.1 i1).1
          have := hw.ge q' rfl
          omega
    · left
      rw [drop_get] at h4
      refine ⟨q + 1 + k, ⟨by omega, ⟨name, m, h4, h5, h6⟩, ?_⟩, ?_⟩
      · rintro i h1 h2 ⟨name', m', e1, e2, e3⟩
        refine h7 (i - (q + 1)) (by omega) name' m' ?_ e2 e3
        rw [drop_get, show q + 1 + (i - (q + 1)) = i by omega]
        exact e1
      · intro q' hq'
        have := hw.ge q' hq'
        omega

/-- **C88**, when no section follows in the section: `EXIT_SECTION` goes past the end of the section. -/
theorem branch_exit_section_partial {env : Env σ π} {s s' : State σ} {q : Nat} {n : Node σ} {r : Option Nat}
    {a l1 l2 b : List Str} {sid id : Str}
    (h0 : env.form[0]? = some []) (hid : "EXIT_SECTION".toList ∉ env.form) (hi : ItemAt env q n)
    (hf : env.form = a ++ sid :: (l1 ++ id :: l2 ++ closing sid :: b)) (hq : q = a.length + 1 + l1.length)
    (hl2 : ∀ x ∈ l2, Plain x)
    (hl : n.linear = true) (hr : InEffect n s "EXIT_SECTION".toList)
    (h : nextQuestion env s (some q) = (s', .ok r)) :
    ∀ q', r = some q' → q + l2.length + 1 < q' := by
  have hc : checkTarget env.get n "EXIT_SECTION".toList = .ok (some "EXIT_SECTION".toList) := by
    obtain ⟨_, _, _, _, hk⟩ := hi
    unfold checkTarget
    rw [if_neg (by rw [hk]; decide), if_pos (.inl rfl)]
  rw [nextQuestion_pos (itemAt_pos h0 hi), branchTarget_item hi hl hr, hc] at h
  simp only [if_neg (show ¬ "EXIT_SECTION".toList = "EXIT_TEST".toList by decide)] at h
  have hdrop : env.form.drop (q + 1) = l2 ++ closing sid :: b := by
    rw [hf, hq, show a ++ sid :: (l1 ++ id :: l2 ++ closing sid :: b) = (a ++ sid :: (l1 ++ [id])) ++ (l2 ++ closing sid :: b) by simp]
    rw [List.drop_append_of_le_length (by simp; omega), List.drop_eq_nil_of_le (by simp; omega), List.nil_append]
  cases hs : scan env.get "EXIT_SECTION".toList (env.form.drop (q + 1)) (q + 1) with
  | error e => rw [hs] at h; injection h with _ h; cases h
  | ok j =>
    rw [hs] at h
    simp only at h
    have hw := walk_of h
    intro q' hq'
    have hge := hw.ge q' hq'
    rcases scan_section env.get _ _ _ (fun id hm e => hid (e ▸ List.mem_of_mem_drop hm)) hs with ⟨h3, h4⟩ | ⟨k, name, h3, h4, h5⟩
    · exfalso
      rw [hdrop] at h4
      exact h4 l2.length sid (by rw [List.getElem?_append_right (by omega)]; simp [closing])
    · rw [hdrop] at h4 h5
      have : ¬ k < l2.length := by
        intro hk
        rw [List.getElem?_append_left hk] at h4
        exact (hl2 _ (List.mem_of_getElem? h4)).2 rfl
      omega

/-- **C88**: a rule in effect with an undeclared target, or one of another part, is reported, and nothing changes. -/
theorem branch_bad_target {env : Env σ π} {s : State σ} {q : Nat} {n : Node σ} {t : Str}
    (h0 : env.form[0]? = some []) (hi : ItemAt env q n) (hl : n.linear = true) (hr : InEffect n s t)
    (ht : t ≠ "EXIT_SECTION".toList ∧ t ≠ "EXIT_TESTPART".toList ∧ t ≠ "EXIT_TEST".toList)
    (hm : ∀ m, env.get t = some m → m.kind = .part ∨ m.partId ≠ n.partId) :
    nextQuestion env s (some q) = (s, .error .processing) := by
  have hc : checkTarget env.get n t = .error .processing := by
    obtain ⟨_, _, _, _, hk⟩ := hi
    unfold checkTarget
    rw [if_neg (by rw [hk]; decide), if_neg (fun h => h.elim ht.1 (fun h => h.elim ht.2.1 ht.2.2))]
    cases hg : env.get t with
    | none => rfl
    | some m =>
      simp only
      split
      · rfl
      · rename_i hk
        rcases hm m hg with h | h
        · exact absurd h hk
        · rw [if_neg h]
  rw [nextQuestion_pos (itemAt_pos h0 hi), branchTarget_item hi hl hr, hc]

/-- The nodes of a test with a section in a section: the first question has a rule to leave its section. -/
def exitGet : Str → Option (Node Unit) := fun id =>
  if id = "P".toList then some ⟨.part, true, true, "P".toList, [], []⟩
  else if id = "S".toList ∨ id = "T".toList then some ⟨.sect, true, true, "P".toList, [], []⟩
  else if id = "Q1".toList then some ⟨.item, true, true, "P".toList, [], [(fun _ => .ok true, "EXIT_SECTION".toList)]⟩
  else if id = "Q2".toList ∨ id = "Q3".toList then some ⟨.item, true, true, "P".toList, [], []⟩
  else none

/-- The session. -/
def exitEnv : Env Unit Unit where
  form := ["", "P", "S", "Q1", "T", "Q2", "-T", "Q3", "-S", "-P"].map String.toList
  get := exitGet
  defaults := id
  present := fun _ s => (s, none)
  attempt := fun _ s => (s, none)
  save := fun _ p _ => (p, none)
  submit := fun _ p _ => (p, none)
  newKey := fun t => (toString t.num).toList

/-- What goes wrong with **C88**: `EXIT_SECTION` does not leave the section if a section follows in it. -/
theorem exit_section_refuted : ItemAt exitEnv 3 ⟨.item, true, true, "P".toList, [], [(fun _ => .ok true, "EXIT_SECTION".toList)]⟩ ∧
    Encloses exitGet exitEnv.form 2 3 ∧ Encloses exitGet exitEnv.form 2 7 ∧
    ∀ s, (nextQuestion exitEnv s (some 3)).2.toOption = some (some 7) := by
  have hsect : Balanced exitGet (["Q1", "T", "Q2", "-T", "Q3"].map String.toList) := by
    refine .item (n := ⟨.item, true, true, "P".toList, [], [(fun _ => .ok true, "EXIT_SECTION".toList)]⟩) (by decide) rfl rfl ?_
    refine .group (id := "T".toList) (n := ⟨.sect, true, true, "P".toList, [], []⟩) (inner := ["Q2".toList]) (rest := ["Q3".toList])
      (by decide) rfl (by decide) ?_ ?_
    · exact .item (n := ⟨.item, true, true, "P".toList, [], []⟩) (by decide) rfl rfl .nil
    · exact .item (n := ⟨.item, true, true, "P".toList, [], []⟩) (by decide) rfl rfl .nil
  refine ⟨⟨"Q1".toList, rfl, by decide, rfl, rfl⟩, ?_, ?_, ?_⟩
  · exact ⟨["".toList, "P".toList], "S".toList, _, _, ["-P".toList], rfl, by decide, rfl, by decide, hsect, rfl, by decide, by decide⟩
  · exact ⟨["".toList, "P".toList], "S".toList, _, _, ["-P".toList], rfl, by decide, rfl, by decide, hsect, rfl, by decide, by decide⟩
  · intro s
    have hb : branchTarget exitEnv s 3 = .ok 7 := rfl
    rw [nextQuestion_pos (by decide), hb]
    simp only
    rw [nextFrom]
    rfl

/-! ## Nonlinear parts and simultaneous submission -/

theorem showPage_navigation {env : Env σ π} {s s' : Sess σ} (h : showPage env s = (s', none)) :
    s'.cur = s.cur ∧ navigation env s.cur = none := by
  refine ⟨by have := showPage_cur env s; rw [h] at this; exact this, ?_⟩
  unfold showPage at h
  split at h
  · rename_i hc; rw [hc]; rfl
  · rename_i hc; rw [hc]; rfl
  · split at h
    · injection h with _ h; cases h
    · injection h with _ h

/-- What goes wrong with **C91**: no page is ever made for a question of a part that is not linear, or that is
submitted as a whole: every request after which there is such a question fails. -/
theorem other_modes_fail {env : Env σ π} {s s' : Sess σ} {e : Event π} (h : step env s e = (s', none)) {q : Nat}
    {n : Node σ} (hc : s'.cur = some q) (hq : q ≠ 0) (hi : ItemAt env q n) (hn : s'.cur ≠ s.cur) :
    n.linear = true ∧ n.individual = true := by
  have key : ∀ s1 : Sess σ, moveOn env s1 = (s', none) → n.linear = true ∧ n.individual = true := by
    intro s1 h1
    unfold moveOn at h1
    split at h1
    · injection h1 with _ h1; cases h1
    · obtain ⟨h2, h3⟩ := showPage_navigation h1
      simp only at h2 h3
      rw [← h2, hc] at h3
      cases q with
      | zero => exact absurd rfl hq
      | succ q =>
        obtain ⟨id, i1, i2, i3, i4⟩ := hi
        unfold navigation at h3
        simp only [i1, i3] at h3
        split at h3
        · rename_i hb; simpa using hb
        · cases h3
  cases e with
  | begin key' now =>
    rw [step, beginSession] at h
    split at h
    · injection h with _ h; cases h
    · exact key _ h
  | save key' params now =>
    exfalso
    rw [step, saveSession] at h
    have hk := eventUpdate_keeps env s key' now
    cases he : eventUpdate env s key' now with
    | mk s1 x =>
      rw [he] at hk h
      simp only at hk h
      cases x with
      | error e => injection h with _ h; cases h
      | ok dt =>
        simp only at h
        have : s'.cur = s1.cur := by
          split at h
          · injection h with h _; rw [← h]
          · split at h
            · injection h with h _; rw [← h]
            · injection h with h _; rw [← h]
            · split at h
              · injection h with h _; rw [← h]
              · injection h with h _; rw [← h]
        exact hn (this.trans hk.1)
  | submit key' params now =>
    rw [step, submitSession] at h
    have hk := eventUpdate_keeps env s key' now
    cases he : eventUpdate env s key' now with
    | mk s1 x =>
      rw [he] at hk h
      simp only at hk h
      cases x with
      | error e => injection h with _ h; cases h
      | ok dt =>
        simp only at h
        split at h
        · injection h with _ h; cases h
        · split at h
          · exfalso; injection h with h _; rw [← h] at hn; exact hn hk.1
          · exfalso; injection h with h _; rw [← h] at hn; exact hn hk.1
          · split at h
            · injection h with _ h; cases h
            · split at h
              · injection h with _ h; cases h
              · split at h
                · split at h
                  · split at h
                    · injection h with _ h; cases h
                    · exact key _ h
                  · injection h with _ h; cases h
                · injection h with _ h; cases h

end Verif.Props
