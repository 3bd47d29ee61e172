import Verif.Spec.TestSession

/-!
# Lemmas on moving through a test
-/

set_option linter.unusedVariables false

namespace Verif.TestSession

open Verif Verif.Spec.TestSession

variable {σ π : Type}

theorem plain_cons {c : Char} {name : Str} (h : c ≠ '-') : Plain (c :: name) := ⟨by simp, by simpa using h⟩

theorem conds_true {s : State σ} : ∀ {l : List (Cond σ)}, conds s l = .ok true → ∀ c ∈ l, c s = .ok true
  | [], _ => by simp
  | c :: l, h => by
    unfold conds at h
    cases hc : c s with
    | error e => simp only [hc] at h; cases h
    | ok b =>
      cases b with
      | false => simp only [hc] at h; cases h
      | true =>
        simp only [hc] at h
        intro d hd
        rcases List.mem_cons.1 hd with rfl | hd
        · exact hc
        · exact conds_true h d hd

theorem conds_of_true {s : State σ} : ∀ {l : List (Cond σ)}, (∀ c ∈ l, c s = .ok true) → conds s l = .ok true
  | [], _ => rfl
  | c :: l, h => by
    unfold conds
    rw [h c (by simp)]
    exact conds_of_true fun d hd => h d (by simp [hd])

theorem conds_false {s : State σ} : ∀ {l : List (Cond σ)}, conds s l = .ok false →
    ∃ a c b, l = a ++ c :: b ∧ (∀ d ∈ a, d s = .ok true) ∧ c s = .ok false
  | [], h => by cases h
  | c :: l, h => by
    unfold conds at h
    cases hc : c s with
    | error e => simp only [hc] at h; cases h
    | ok b =>
      cases b with
      | false => exact ⟨[], c, l, rfl, by simp, hc⟩
      | true =>
        simp only [hc] at h
        obtain ⟨a, d, b, h1, h2, h3⟩ := conds_false h
        refine ⟨c :: a, d, b, by rw [h1]; rfl, ?_, h3⟩
        intro x hx
        rcases List.mem_cons.1 hx with rfl | hx
        · exact hc
        · exact h2 x hx

theorem conds_of_false {s : State σ} : ∀ {a : List (Cond σ)} {c : Cond σ} {b : List (Cond σ)},
    (∀ d ∈ a, d s = .ok true) → c s = .ok false → conds s (a ++ c :: b) = .ok false
  | [], c, b, _, h => by
    rw [List.nil_append]; unfold conds; rw [h]
  | d :: a, c, b, hd, h => by
    rw [List.cons_append]
    unfold conds
    rw [hd d (by simp)]
    exact conds_of_false (fun x hx => hd x (by simp [hx])) h

theorem checkPre_true {n : Node σ} {s : State σ} (h : checkPre n s = .ok true) :
    (n.kind = .part ∨ n.linear = true) ∧ Eligible n s := by
  unfold checkPre at h
  split at h
  · cases h
  · rename_i hk
    refine ⟨?_, conds_true h⟩
    cases hl : n.linear with
    | true => exact .inr rfl
    | false => exact .inl (Decidable.byContradiction fun hn => hk ⟨hn, hl⟩)

theorem checkPre_of_eligible {n : Node σ} {s : State σ} (hl : n.kind = .part ∨ n.linear = true) (h : Eligible n s) :
    checkPre n s = .ok true := by
  unfold checkPre
  rw [if_neg]
  · exact conds_of_true h
  · rintro ⟨h1, h2⟩
    rcases hl with hl | hl
    · exact h1 hl
    · rw [hl] at h2; cases h2

theorem checkPre_false {n : Node σ} {s : State σ} (hl : n.kind = .part ∨ n.linear = true)
    (h : checkPre n s = .ok false) : Barred n s := by
  unfold checkPre at h
  rw [if_neg] at h
  · exact conds_false h
  · rintro ⟨h1, h2⟩
    rcases hl with hl | hl
    · exact h1 hl
    · rw [hl] at h2; cases h2

theorem eligible_not_barred {n : Node σ} {s : State σ} (h : Eligible n s) : ¬ Barred n s := by
  rintro ⟨a, c, b, h1, _, h3⟩
  have := h c (by rw [h1]; simp)
  rw [this] at h3
  cases h3

theorem firstRule_none {get : Str → Option (Node σ)} {n : Node σ} {s : State σ} : ∀ {l : List (Cond σ × Str)},
    (∀ d ∈ l, d.1 s = .ok false) → firstRule get n s l = .ok none
  | [], _ => rfl
  | (c, t) :: l, h => by
    unfold firstRule
    rw [show c s = .ok false from h (c, t) (by simp)]
    exact firstRule_none fun d hd => h d (by simp [hd])

theorem firstRule_some {get : Str → Option (Node σ)} {n : Node σ} {s : State σ} {t : Str} {c : Cond σ} {r} :
    ∀ {l : List (Cond σ × Str)}, (∀ d ∈ l, d.1 s = .ok false) → c s = .ok true →
    firstRule get n s (l ++ (c, t) :: r) = checkTarget get n t
  | [], _, h => by
    rw [List.nil_append]; unfold firstRule; rw [h]
  | (d, u) :: l, hd, h => by
    rw [List.cons_append]
    unfold firstRule
    rw [show d s = .ok false from hd (d, u) (by simp)]
    exact firstRule_some (fun x hx => hd x (by simp [hx])) h

theorem getBranchTarget_none {get : Str → Option (Node σ)} {n : Node σ} {s : State σ} (h : NoBranch n s) :
    getBranchTarget get n s = .ok none := by
  unfold getBranchTarget
  split
  · rfl
  · exact firstRule_none h

theorem getBranchTarget_some {get : Str → Option (Node σ)} {n : Node σ} {s : State σ} {t : Str}
    (hl : n.linear = true) (h : InEffect n s t) : getBranchTarget get n s = checkTarget get n t := by
  obtain ⟨l, c, r, h1, h2, h3⟩ := h
  unfold getBranchTarget
  rw [if_neg (by simp [hl]), h1]
  exact firstRule_some h2 h3

/-! ## The walk -/

/-- What the loop of `_NextQuestion` does, step by step, when there is no exception. -/
inductive Walk (env : Env σ π) : State σ → Nat → State σ → Option Nat → Prop where
  | done {s i} : env.form.length ≤ i → Walk env s i s none
  | close {s i name j s' r} : env.form[i]? = some ('-' :: name) → branchTarget env s i = .ok j → i < j →
      Walk env s j s' r → Walk env s i s' r
  | skip {s i id n s' r} : env.form[i]? = some id → Plain id → env.get id = some n → checkPre n s = .ok false →
      Walk env s (i + 1) s' r → Walk env s i s' r
  | enter {s i id n s' r} : env.form[i]? = some id → Plain id → env.get id = some n → checkPre n s = .ok true →
      n.kind ≠ .item → n.linear = true → Walk env s (i + 1) s' r → Walk env s i s' r
  | enterNon {s i id n s1 s' r} : env.form[i]? = some id → Plain id → env.get id = some n → checkPre n s = .ok true →
      n.kind = .part → n.linear = false → presentAll env ('-' :: id) (env.form.drop (i + 1)) (i + 1) s = (s1, none) →
      Walk env s1 (i + 1) s' r → Walk env s i s' r
  | found {s i id n s'} : env.form[i]? = some id → Plain id → env.get id = some n → checkPre n s = .ok true →
      n.kind = .item → n.linear = true → presentItem env i s = (s', none) → Walk env s i s' (some i)

theorem nextFrom_walk (env : Env σ π) : ∀ (k : Nat) (s : State σ) (i : Nat) (s' : State σ) (r : Option Nat),
    env.form.length - i ≤ k → nextFrom env s i = (s', .ok r) → Walk env s i s' r := by
  intro k
  induction k with
  | zero =>
    intro s i s' r hk h
    rw [nextFrom] at h
    rw [dif_neg (by omega)] at h
    injection h with h1 h2
    injection h2 with h2
    subst h1; subst h2
    exact .done (by omega)
  | succ k ih =>
    intro s i s' r hk h
    rw [nextFrom] at h
    split at h
    · rename_i hi
      have hg : env.form[i]? = some env.form[i] := List.getElem?_eq_getElem hi
      split at h
      · injection h with _ h; cases h
      · rename_i c name hf
        rw [hf] at hg
        split at h
        · rename_i hc
          subst hc
          split at h
          · injection h with _ h; cases h
          · rename_i j hb
            have hlt := branchTarget_gt hi hb
            exact .close hg hb hlt (ih s j s' r (by omega) h)
        · rename_i hc
          have hp : Plain (c :: name) := plain_cons hc
          split at h
          · injection h with _ h; cases h
          · rename_i n hn
            split at h
            · injection h with _ h; cases h
            · rename_i hcp
              exact .skip hg hp hn hcp (ih s (i + 1) s' r (by omega) h)
            · rename_i hcp
              have hlk := (checkPre_true hcp).1
              split at h
              · rename_i hkd
                split at h
                · rename_i hl
                  exact .enter hg hp hn hcp (by rw [hkd]; decide) hl (ih s (i + 1) s' r (by omega) h)
                · rename_i hl
                  split at h
                  · injection h with _ h; cases h
                  · rename_i s1 hpa
                    exact .enterNon hg hp hn hcp hkd (by simpa using hl) hpa (ih s1 (i + 1) s' r (by omega) h)
              · rename_i hkd
                have hl : n.linear = true := by
                  rcases hlk with hlk | hlk
                  · rw [hkd] at hlk; cases hlk
                  · exact hlk
                exact .enter hg hp hn hcp (by rw [hkd]; decide) hl (ih s (i + 1) s' r (by omega) h)
              · rename_i hkd
                have hl : n.linear = true := by
                  rcases hlk with hlk | hlk
                  · rw [hkd] at hlk; cases hlk
                  · exact hlk
                rw [if_pos hl] at h
                split at h
                · injection h with _ h; cases h
                · rename_i s1 hpi
                  injection h with h1 h2
                  injection h2 with h2
                  subst h1; subst h2
                  exact .found hg hp hn hcp hkd hl hpi
    · rename_i hi
      injection h with h1 h2
      injection h2 with h2
      subst h1; subst h2
      exact .done (by omega)

theorem walk_of {env : Env σ π} {s s' : State σ} {i : Nat} {r : Option Nat} (h : nextFrom env s i = (s', .ok r)) :
    Walk env s i s' r := nextFrom_walk env _ s i s' r (Nat.le_refl _) h

/-- A question found is not before the start. -/
theorem Walk.ge {env : Env σ π} {s s' : State σ} {i : Nat} {r : Option Nat} (h : Walk env s i s' r) :
    ∀ q, r = some q → i ≤ q := by
  induction h with
  | done _ => intro q h; cases h
  | close _ _ hij _ ih => intro q h; have := ih q h; omega
  | skip _ _ _ _ _ ih => intro q h; have := ih q h; omega
  | enter _ _ _ _ _ _ _ ih => intro q h; have := ih q h; omega
  | enterNon _ _ _ _ _ _ _ _ ih => intro q h; have := ih q h; omega
  | found => intro q h; injection h with h; omega

/-- A question found is an item of a linear part whose pre-conditions were true just before it was begun. -/
theorem Walk.found_item {env : Env σ π} {s s' : State σ} {i : Nat} {r : Option Nat} (h : Walk env s i s' r) :
    ∀ q, r = some q → ∃ n s1, ItemAt env q n ∧ n.linear = true ∧ Eligible n s1 ∧ presentItem env q s1 = (s', none) := by
  induction h with
  | done _ => intro q h; cases h
  | close _ _ _ _ ih => exact ih
  | skip _ _ _ _ _ ih => exact ih
  | enter _ _ _ _ _ _ _ ih => exact ih
  | enterNon _ _ _ _ _ _ _ _ ih => exact ih
  | found hf hp hg hc hk hl hpr =>
    intro q h
    injection h with h
    subst h
    exact ⟨_, _, ⟨_, hf, hp, hg, hk⟩, hl, (checkPre_true hc).2, hpr⟩

/-! ## Scanning -/

/-- Scanning for an identifier that is not one of the special ones. -/
theorem scan_named (get : Str → Option (Node σ)) {t : Str} (h1 : t ≠ "EXIT_SECTION".toList)
    (h2 : t ≠ "EXIT_TESTPART".toList) : ∀ (l : List Str) (q j : Nat), scan get t l q = .ok j →
    ∃ k, j = q + k ∧ k ≤ l.length ∧ (∀ i, i < k → l[i]? ≠ some t) ∧ (k < l.length → l[k]? = some t)
  | [], q, j, h => by injection h with h; exact ⟨0, by omega, by simp, by simp, by simp⟩
  | id :: rest, q, j, h => by
    unfold scan at h
    split at h
    · rename_i he
      injection h with h
      exact ⟨0, by omega, by simp, by simp, by simp [he]⟩
    · rename_i hne
      have key : scan get t rest (q + 1) = .ok j → ∃ k, j = q + k ∧ k ≤ (id :: rest).length ∧
          (∀ i, i < k → (id :: rest)[i]? ≠ some t) ∧ (k < (id :: rest).length → (id :: rest)[k]? = some t) := by
        intro h
        obtain ⟨k, k1, k2, k3, k4⟩ := scan_named get h1 h2 rest (q + 1) j h
        refine ⟨k + 1, by omega, by simpa using k2, ?_, ?_⟩
        · intro i hi
          cases i with
          | zero => simp; exact fun e => hne e.symm
          | succ i => simpa using k3 i (by omega)
        · intro hk; simpa using k4 (by simpa using hk)
      split at h
      · cases h
      · split at h
        · exact key h
        · exact key h

/-- Scanning for the end of the test part. -/
theorem scan_testPart (get : Str → Option (Node σ)) : ∀ (l : List Str) (q j : Nat),
    (∀ id ∈ l, id ≠ "EXIT_TESTPART".toList) → scan get "EXIT_TESTPART".toList l q = .ok j →
    (j = q + l.length ∧ ∀ (i : Nat) name n, l[i]? = some ('-' :: name) → get name = some n → n.kind ≠ .part) ∨
    ∃ (k : Nat) (name : Str) (n : Node σ), j = q + k + 1 ∧ l[k]? = some ('-' :: name) ∧ get name = some n ∧ n.kind = .part ∧
      ∀ i, i < k → ∀ name n, l[i]? = some ('-' :: name) → get name = some n → n.kind ≠ .part
  | [], q, j, hl, h => by injection h with h; exact .inl ⟨by simp [h], by simp⟩
  | id :: rest, q, j, hl, h => by
    unfold scan at h
    rw [if_neg (fun e => hl id (by simp) e.symm)] at h
    have key : (∀ name n, id = '-' :: name → get name = some n → n.kind ≠ .part) →
        scan get "EXIT_TESTPART".toList rest (q + 1) = .ok j →
        (j = q + (id :: rest).length ∧ ∀ (i : Nat) name n, (id :: rest)[i]? = some ('-' :: name) → get name = some n → n.kind ≠ .part) ∨
        ∃ (k : Nat) (name : Str) (n : Node σ), j = q + k + 1 ∧ (id :: rest)[k]? = some ('-' :: name) ∧ get name = some n ∧ n.kind = .part ∧
          ∀ i, i < k → ∀ name n, (id :: rest)[i]? = some ('-' :: name) → get name = some n → n.kind ≠ .part := by
      intro h0 h
      rcases scan_testPart get rest (q + 1) j (fun x hx => hl x (by simp [hx])) h with ⟨h3, h4⟩ | ⟨k, name, n, h3, h4, h5, h6, h7⟩
      · left
        refine ⟨by rw [h3]; simp; omega, ?_⟩
        intro i name n hi
        cases i with
        | zero => exact h0 name n (by simpa using hi)
        | succ i => exact h4 i name n (by simpa using hi)
      · right
        refine ⟨k + 1, name, n, by omega, by simpa using h4, h5, h6, ?_⟩
        intro i hi name n hin
        cases i with
        | zero => exact h0 name n (by simpa using hin)
        | succ i => exact h7 i (by omega) name n (by simpa using hin)
    split at h
    · cases h
    · rename_i c name
      split at h
      · rename_i hc
        subst hc
        rw [if_neg (by decide), if_pos rfl] at h
        split at h
        · cases h
        · rename_i m hm
          split at h
          · rename_i hk
            injection h with h
            right
            exact ⟨0, name, m, by omega, by simp, hm, hk, by simp⟩
          · rename_i hk
            refine key ?_ h
            intro name' n he hn
            injection he with _ he
            subst he
            rw [hm] at hn
            injection hn with hn
            subst hn
            exact hk
      · rename_i hc
        refine key ?_ h
        intro name' n he
        injection he with he _
        exact absurd he hc

/-- Scanning for the end of the section stops after the first closing identifier. -/
theorem scan_section (get : Str → Option (Node σ)) : ∀ (l : List Str) (q j : Nat),
    (∀ id ∈ l, id ≠ "EXIT_SECTION".toList) → scan get "EXIT_SECTION".toList l q = .ok j →
    (j = q + l.length ∧ ∀ (i : Nat) name, l[i]? ≠ some ('-' :: name)) ∨
    ∃ (k : Nat) (name : Str), j = q + k + 1 ∧ l[k]? = some ('-' :: name) ∧ ∀ i, i < k → ∀ name, l[i]? ≠ some ('-' :: name)
  | [], q, j, hl, h => by injection h with h; exact .inl ⟨by simp [h], by simp⟩
  | id :: rest, q, j, hl, h => by
    unfold scan at h
    rw [if_neg (fun e => hl id (by simp) e.symm)] at h
    split at h
    · cases h
    · rename_i c name
      split at h
      · rename_i hc
        subst hc
        rw [if_pos rfl] at h
        injection h with h
        right
        exact ⟨0, name, by omega, by simp, by simp⟩
      · rename_i hc
        rcases scan_section get rest (q + 1) j (fun x hx => hl x (by simp [hx])) h with ⟨h3, h4⟩ | ⟨k, name', h3, h4, h5⟩
        · left
          refine ⟨by rw [h3]; simp; omega, ?_⟩
          intro i name hi
          cases i with
          | zero => simp at hi; exact hc hi.1
          | succ i => exact h4 i name (by simpa using hi)
        · right
          refine ⟨k + 1, name', by omega, by simpa using h4, ?_⟩
          intro i hi name hin
          cases i with
          | zero => simp at hin; exact hc hin.1
          | succ i => exact h5 i (by omega) name (by simpa using hin)

end Verif.TestSession
