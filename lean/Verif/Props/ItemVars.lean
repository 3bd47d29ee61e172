import Verif.Model.ItemVars

/-! # C13, C14: the variables of a migrated item -/

set_option linter.unusedVariables false

namespace Verif.Props

open Verif Verif.Py Verif.Dict Verif.Item

/-- Invariant of the tables of an item. -/
structure ItemInv (s : St) : Prop where
  fb : get s.variables feedbackName = some .reserved
  resp : ∀ p ∈ s.responses, get s.variables p.2 = some .response
  out : ∀ p ∈ s.outcomes, get s.variables p.2 = some .outcome
  respInj : ∀ p ∈ s.responses, ∀ q ∈ s.responses, p.2 = q.2 → p.1 = q.1
  outInj : ∀ p ∈ s.outcomes, ∀ q ∈ s.outcomes, p.2 = q.2 → p.1 = q.1
  decl : ∀ p ∈ s.declared, get s.variables p.1 ≠ none
  declResp : ∀ p ∈ s.declared, p.2 = .responseDeclaration → get s.variables p.1 = some .response
  fbDecl : ∀ p ∈ s.declared, p.1 = feedbackName → s.declareFeedback = true

theorem itemInv_init : ItemInv St.init := by
  refine ⟨?_, ?_, ?_, ?_, ?_, ?_, ?_, ?_⟩
  · exact (get_cons _ _ _).trans (if_pos rfl)
  all_goals (intro p hp; exact absurd hp (List.not_mem_nil))

theorem uniqueLoop_fresh {vars : List (Str × VarKind)} {base n : Str} {fuel k : Nat}
    (h : uniqueLoop vars base fuel k = .ok n) : get vars n = none := by
  induction fuel generalizing k with
  | zero => simp [uniqueLoop] at h
  | succ fuel ih =>
    simp only [uniqueLoop] at h
    split at h
    · exact ih h
    · rename_i hh
      injection h with h
      subst h
      exact (not_has_iff _ _).1 (by simpa using hh)

theorem chooseName_fresh {s : St} {i n : Str} (h : chooseName s i = .ok n) : get s.variables n = none := by
  unfold chooseName at h
  split at h
  · exact uniqueLoop_fresh h
  · rename_i hh
    injection h with h
    subst h
    exact (not_has_iff _ _).1 (by simpa using hh)

theorem mem_set {κ β} [DecidableEq κ] {d : List (κ × β)} {k : κ} {v : β} {p : κ × β}
    (h : p ∈ set d k v) : p = (k, v) ∨ p ∈ d := by
  unfold Dict.set at h
  rcases List.mem_cons.1 h with h | h
  · exact .inl h
  · exact .inr (List.mem_filter.1 h).1

/-- A fresh name is not declared, so declaring it cannot fail. -/
theorem declareVariable_fresh {s : St} (hs : ItemInv s) {n : Str} (k : DeclKind)
    (h : get s.variables n = none) : declareVariable s.declared n k = .ok (set s.declared n k) := by
  unfold declareVariable
  rw [if_neg]
  intro hh
  obtain ⟨v, hv⟩ := (has_iff _ _).1 hh
  exact hs.decl _ (mem_of_get hv) h

/-- The common part of declaring anything under a fresh name. -/
theorem newResponse_inv {s : St} (hs : ItemInv s) {i n : Str} (k : DeclKind)
    (hn : get s.variables n = none) :
    ItemInv { s with responses := set s.responses i n, declared := set s.declared n k,
                     variables := set s.variables n .response } := by
  have hfb : feedbackName ≠ n := by intro e; rw [← e, hs.fb] at hn; cases hn
  have hold : ∀ m, get s.variables m ≠ none → m ≠ n := by intro m hm e; subst e; exact hm hn
  constructor
  · rw [get_set, if_neg hfb]; exact hs.fb
  · intro p hp
    rcases mem_set hp with e | h
    · subst e; rw [get_set]; simp
    · have := hs.resp p h
      rw [get_set, if_neg (hold _ (by rw [this]; simp))]; exact this
  · intro p hp
    have := hs.out p hp
    rw [get_set, if_neg (hold _ (by rw [this]; simp))]; exact this
  · intro p hp q hq e
    rcases mem_set hp with e1 | h1 <;> rcases mem_set hq with e2 | h2
    · subst e1 e2; rfl
    · subst e1
      have := hs.resp q h2
      exact absurd e.symm (hold _ (by rw [this]; simp))
    · subst e2
      have := hs.resp p h1
      exact absurd e (hold _ (by rw [this]; simp))
    · exact hs.respInj p h1 q h2 e
  · exact hs.outInj
  · intro p hp
    rcases mem_set hp with e | h
    · subst e; rw [get_set]; simp
    · rw [get_set, if_neg (hold _ (hs.decl p h))]; exact hs.decl p h
  · intro p hp hk
    rcases mem_set hp with e | h
    · subst e; rw [get_set]; simp
    · rw [get_set, if_neg (hold _ (hs.decl p h))]; exact hs.declResp p h hk
  · intro p hp he
    rcases mem_set hp with e | h
    · subst e; exact absurd he.symm hfb
    · exact hs.fbDecl p h he

theorem newOutcome_inv {s : St} (hs : ItemInv s) {i n : Str} (hn : get s.variables n = none) :
    ItemInv { s with outcomes := set s.outcomes i n, declared := set s.declared n .outcomeDeclaration,
                     variables := set s.variables n .outcome } := by
  have hfb : feedbackName ≠ n := by intro e; rw [← e, hs.fb] at hn; cases hn
  have hold : ∀ m, get s.variables m ≠ none → m ≠ n := by intro m hm e; subst e; exact hm hn
  constructor
  · rw [get_set, if_neg hfb]; exact hs.fb
  · intro p hp
    have := hs.resp p hp
    rw [get_set, if_neg (hold _ (by rw [this]; simp))]; exact this
  · intro p hp
    rcases mem_set hp with e | h
    · subst e; rw [get_set]; simp
    · have := hs.out p h
      rw [get_set, if_neg (hold _ (by rw [this]; simp))]; exact this
  · exact hs.respInj
  · intro p hp q hq e
    rcases mem_set hp with e1 | h1 <;> rcases mem_set hq with e2 | h2
    · subst e1 e2; rfl
    · subst e1
      have := hs.out q h2
      exact absurd e.symm (hold _ (by rw [this]; simp))
    · subst e2
      have := hs.out p h1
      exact absurd e (hold _ (by rw [this]; simp))
    · exact hs.outInj p h1 q h2 e
  · intro p hp
    rcases mem_set hp with e | h
    · subst e; rw [get_set]; simp
    · rw [get_set, if_neg (hold _ (hs.decl p h))]; exact hs.decl p h
  · intro p hp hk
    rcases mem_set hp with e | h
    · subst e; cases hk
    · rw [get_set, if_neg (hold _ (hs.decl p h))]; exact hs.declResp p h hk
  · intro p hp he
    rcases mem_set hp with e | h
    · subst e; exact absurd he.symm hfb
    · exact hs.fbDecl p h he

/-- What a response declaration does to a well-formed item. -/
theorem declareResponse_eq {s : St} (hs : ItemInv s) (k : DeclKind) (i : Str) :
    declareResponse k s i =
      if has s.responses i then .error .qtiException
      else match chooseName s i with
        | .error e => .error e
        | .ok name => .ok (name, { s with responses := set s.responses i name,
                                          declared := set s.declared name k,
                                          variables := set s.variables name .response }) := by
  unfold declareResponse
  split
  · rfl
  · cases hc : chooseName s i with
    | error e => rfl
    | ok n => simp only [declareVariable_fresh hs k (chooseName_fresh hc)]

theorem newOutcome_eq {s : St} (hs : ItemInv s) (i : Str) :
    newOutcome s i = match chooseName s i with
        | .error e => .error e
        | .ok name => .ok (name, { s with outcomes := set s.outcomes i name,
                                          declared := set s.declared name .outcomeDeclaration,
                                          variables := set s.variables name .outcome }) := by
  unfold newOutcome
  cases hc : chooseName s i with
  | error e => rfl
  | ok n => simp only [declareVariable_fresh hs _ (chooseName_fresh hc)]

theorem get_foldl_del (ps : List (Str × Str)) (vs : List (Str × VarKind)) (n : Str)
    (h : ∀ p ∈ ps, p.2 ≠ n) : get (ps.foldl (fun vs p => del vs p.2) vs) n = get vs n := by
  induction ps generalizing vs with
  | nil => rfl
  | cons p ps ih =>
    simp only [List.foldl_cons]
    rw [ih _ (fun q hq => h q (by simp [hq])), get_del, if_neg (fun e => h p (by simp) e.symm)]

theorem reset_inv {s : St} (hs : ItemInv s) : ItemInv (resetResprocessing s) := by
  have hk : ∀ n k, get s.variables n = some k → k ≠ .outcome →
      get (s.outcomes.foldl (fun vs p => del vs p.2) s.variables) n = some k := by
    intro n k hn hne
    rw [get_foldl_del]
    · exact hn
    · intro p hp e
      have := hs.out p hp
      rw [e, hn] at this
      injection this with this
      exact hne this
  constructor
  · exact hk _ _ hs.fb (by simp)
  · intro p hp; exact hk _ _ (hs.resp p hp) (by simp)
  · simp [resetResprocessing]
  · exact hs.respInj
  · simp [resetResprocessing]
  · intro p hp
    simp [resetResprocessing] at hp
    have : p.2 = .responseDeclaration := by
      cases h : p.2 with
      | responseDeclaration => rfl
      | outcomeDeclaration => exact absurd h hp.2
    have := hk _ _ (hs.declResp p hp.1 this) (by simp)
    simp only [resetResprocessing]
    rw [this]; simp
  · intro p hp hr
    simp [resetResprocessing] at hp
    exact hk _ _ (hs.declResp p hp.1 hr) (by simp)
  · intro p hp e
    simp [resetResprocessing] at hp
    exact hs.fbDecl p hp.1 e

theorem step_inv {s : St} (hs : ItemInv s) (op : Op) {r : Str × St} (h : step s op = .ok r) :
    ItemInv r.2 := by
  have hR : ∀ k i, declareResponse k s i = .ok r → ItemInv r.2 := by
    intro k i h
    rw [declareResponse_eq hs] at h
    split at h
    · cases h
    · split at h
      · cases h
      · rename_i n hc
        injection h with h
        subst h
        exact newResponse_inv hs k (chooseName_fresh hc)
  have hO : ∀ i, newOutcome s i = .ok r → ItemInv r.2 := by
    intro i h
    rw [newOutcome_eq hs] at h
    split at h
    · cases h
    · rename_i n hc
      injection h with h
      subst h
      exact newOutcome_inv hs (chooseName_fresh hc)
  cases op with
  | declareResponse i => exact hR _ i h
  | declareFake i => exact hR _ i h
  | declareOutcome i =>
    simp only [step, declareOutcome] at h
    split at h
    · cases h
    · exact hO i h
  | getOutcome i =>
    simp only [step, getOutcome] at h
    split at h
    · split at h
      · injection h with h; subst h; exact hs
      · cases h
      · cases h
    · exact hO i h
  | declareFeedback =>
    simp only [step, declareFeedback] at h
    split at h
    · injection h with h; subst h; exact hs
    · split at h
      · cases h
      · rename_i hfb d hd
        injection h with h
        subst h
        unfold declareVariable at hd
        split at hd
        · cases hd
        · injection hd with hd
          subst hd
          constructor
          · exact hs.fb
          · exact hs.resp
          · exact hs.out
          · exact hs.respInj
          · exact hs.outInj
          · intro p hp
            rcases mem_set hp with e | h
            · subst e; simp [hs.fb]
            · exact hs.decl p h
          · intro p hp hk
            rcases mem_set hp with e | h
            · subst e; cases hk
            · exact hs.declResp p h hk
          · intro _ _ _; rfl
  | reset =>
    simp only [step] at h
    injection h with h
    subst h
    exact reset_inv hs

theorem run_inv (ops : List Op) {s : St} (hs : ItemInv s) : ItemInv (run s ops) := by
  induction ops generalizing s with
  | nil => exact hs
  | cons op ops ih =>
    simp only [run]
    split
    · rename_i r hr; exact ih (step_inv hs op hr)
    · exact ih hs

/-- Looking up a response, in a reachable state, never fails internally. -/
theorem getResponse_eq {s : St} (hs : ItemInv s) (a : Str) :
    getResponse s a = .ok (get s.responses a) := by
  unfold getResponse
  cases h : get s.responses a with
  | none => rfl
  | some n =>
    have := hs.resp _ (mem_of_get h)
    simp only at this
    simp [this]

/-- The migrated identifier of an outcome that is known to the item. -/
def knownOutcome (s : St) (b m : Str) : Prop := get s.outcomes b = some m

/-- **C13 (names are distinct).** After any history, distinct source responses have distinct migrated
identifiers, distinct source outcomes too, no response shares its identifier with an outcome, and none
of them is `FEEDBACK`. -/
theorem variable_names_distinct (ops : List Op) :
    let s := run St.init ops
    (∀ a b n, getResponse s a = .ok (some n) → getResponse s b = .ok (some n) → a = b) ∧
    (∀ a b n, knownOutcome s a n → knownOutcome s b n → a = b) ∧
    (∀ a b n m, getResponse s a = .ok (some n) → knownOutcome s b m → n ≠ m) ∧
    (∀ a n, getResponse s a = .ok (some n) → n ≠ "FEEDBACK".toList) ∧
    (∀ a n, knownOutcome s a n → n ≠ "FEEDBACK".toList) := by
  intro s
  have hs : ItemInv s := run_inv ops itemInv_init
  have hg : ∀ a n, getResponse s a = .ok (some n) → (a, n) ∈ s.responses := by
    intro a n h
    rw [getResponse_eq hs] at h
    injection h with h
    exact mem_of_get h
  refine ⟨?_, ?_, ?_, ?_, ?_⟩
  · intro a b n h1 h2
    exact hs.respInj _ (hg a n h1) _ (hg b n h2) rfl
  · intro a b n h1 h2
    exact hs.outInj _ (mem_of_get h1) _ (mem_of_get h2) rfl
  · intro a b n m h1 h2 e
    have e1 := hs.resp _ (hg a n h1)
    have e2 := hs.out _ (mem_of_get h2)
    simp only at e1 e2
    rw [e, e2] at e1
    cases e1
  · intro a n h1 e
    have e1 := hs.resp _ (hg a n h1)
    simp only at e1
    rw [e] at e1
    have := hs.fb
    unfold feedbackName at this
    rw [this] at e1
    cases e1
  · intro a n h1 e
    have e1 := hs.out _ (mem_of_get h1)
    simp only at e1
    rw [e] at e1
    have := hs.fb
    unfold feedbackName at this
    rw [this] at e1
    cases e1

/-- **C13 (no internal failure).** Every operation on a reachable item succeeds or fails with a
`QTIException` raised by the converter's own checks; lookups of responses never fail. -/
theorem no_internal_error (ops : List Op) (op : Op) (e : Err) :
    (step (run St.init ops) op = .error e → e = .qtiException) ∧
    (∀ a, ∃ r, getResponse (run St.init ops) a = .ok r) := by
  have hs : ItemInv (run St.init ops) := run_inv ops itemInv_init
  generalize run St.init ops = s at hs
  refine ⟨?_, fun a => ⟨_, getResponse_eq hs a⟩⟩
  have hc : ∀ i e, chooseName s i = .error e → e = .qtiException := by
    have hl : ∀ fuel k base e, uniqueLoop s.variables base fuel k = .error e → e = .qtiException := by
      intro fuel
      induction fuel with
      | zero => intro k b e h; simp [uniqueLoop] at h; exact h.symm
      | succ n ih =>
        intro k b e h
        simp only [uniqueLoop] at h
        split at h
        · exact ih _ _ _ h
        · cases h
    intro i e h
    unfold chooseName at h
    split at h
    · exact hl _ _ _ _ h
    · cases h
  have hR : ∀ k i, declareResponse k s i = .error e → e = .qtiException := by
    intro k i h
    rw [declareResponse_eq hs] at h
    split at h
    · injection h with h; exact h.symm
    · split at h
      · rename_i e' he; injection h with h; subst h; exact hc _ _ he
      · cases h
  have hO : ∀ i, newOutcome s i = .error e → e = .qtiException := by
    intro i h
    rw [newOutcome_eq hs] at h
    split at h
    · rename_i e' he; injection h with h; subst h; exact hc _ _ he
    · cases h
  intro h
  cases op with
  | declareResponse i => exact hR _ i h
  | declareFake i => exact hR _ i h
  | declareOutcome i =>
    simp only [step, declareOutcome] at h
    split at h
    · injection h with h; exact h.symm
    · exact hO i h
  | getOutcome i =>
    simp only [step, getOutcome] at h
    split at h
    · rename_i n hn
      have := hs.out _ (mem_of_get hn)
      simp only at this
      simp [this] at h
    · exact hO i h
  | declareFeedback =>
    simp only [step, declareFeedback] at h
    split at h
    · cases h
    · rename_i hfb
      unfold declareVariable at h
      rw [if_neg] at h
      · cases h
      · intro hh
        obtain ⟨v, hv⟩ := (has_iff _ _).1 hh
        exact hfb (hs.fbDecl _ (mem_of_get hv) rfl)
  | reset => simp [step] at h

/-- **C13 (re-declaration is refused).** Declaring a response, or an outcome, a second time fails. -/
theorem redeclaration_refused (ops : List Op) (a n : Str) :
    let s := run St.init ops
    (getResponse s a = .ok (some n) →
      step s (.declareResponse a) = .error .qtiException ∧
      step s (.declareFake a) = .error .qtiException) ∧
    (knownOutcome s a n → step s (.declareOutcome a) = .error .qtiException) := by
  intro s
  have hs : ItemInv s := run_inv ops itemInv_init
  constructor
  · intro h
    rw [getResponse_eq hs] at h
    injection h with h
    have : has s.responses a = true := (has_iff _ _).2 ⟨n, h⟩
    simp [step, declareResponse, this]
  · intro h
    have : has s.outcomes a = true := (has_iff _ _).2 ⟨n, h⟩
    simp [step, declareOutcome, this]

/-- **C13 (lookups are stable).** A declared response keeps its migrated identifier whatever happens
later to the item. -/
theorem response_lookup_stable (ops more : List Op) (a n : Str)
    (h : getResponse (run St.init ops) a = .ok (some n)) :
    getResponse (run (run St.init ops) more) a = .ok (some n) := by
  have hs : ItemInv (run St.init ops) := run_inv ops itemInv_init
  generalize run St.init ops = s at hs h
  rw [getResponse_eq (run_inv more hs)]
  rw [getResponse_eq hs] at h
  injection h with h
  congr 1
  induction more generalizing s with
  | nil => exact h
  | cons op ops ih =>
    simp only [run]
    split
    · rename_i r hr
      refine ih r.2 (step_inv hs op hr) ?_
      have hR : ∀ k i, declareResponse k s i = .ok r → get r.2.responses a = some n := by
        intro k i hh
        rw [declareResponse_eq hs] at hh
        split at hh
        · cases hh
        · rename_i hhas
          split at hh
          · cases hh
          · injection hh with hh
            subst hh
            simp only [get_set]
            rw [if_neg]
            · exact h
            · intro e
              subst e
              exact hhas ((has_iff _ _).2 ⟨n, h⟩)
      have hO : ∀ i, newOutcome s i = .ok r → get r.2.responses a = some n := by
        intro i hh
        rw [newOutcome_eq hs] at hh
        split at hh
        · cases hh
        · injection hh with hh
          subst hh
          exact h
      cases op with
      | declareResponse i => exact hR _ i hr
      | declareFake i => exact hR _ i hr
      | declareOutcome i =>
        simp only [step, declareOutcome] at hr
        split at hr
        · cases hr
        · exact hO i hr
      | getOutcome i =>
        simp only [step, getOutcome] at hr
        split at hr
        · split at hr
          · injection hr with hr; subst hr; exact h
          · cases hr
          · cases hr
        · exact hO i hr
      | declareFeedback =>
        simp only [step, declareFeedback] at hr
        split at hr
        · injection hr with hr; subst hr; exact h
        · split at hr
          · cases hr
          · injection hr with hr; subst hr; exact h
      | reset =>
        simp only [step] at hr
        injection hr with hr
        subst hr
        exact h
    · exact ih s hs h

/-- **C13 (lookups are stable, outcomes).** A declared outcome keeps its migrated identifier until the
next `<resprocessing>` starts: looking it up again returns the same identifier and changes nothing. -/
theorem outcome_lookup_stable (ops more : List Op) (a n : Str) (hmore : ∀ op ∈ more, op ≠ .reset)
    (h : knownOutcome (run St.init ops) a n) :
    step (run (run St.init ops) more) (.getOutcome a) = .ok (n, run (run St.init ops) more) := by
  have hs : ItemInv (run St.init ops) := run_inv ops itemInv_init
  generalize run St.init ops = s at hs h
  suffices hk : get (run s more).outcomes a = some n by
    have := (run_inv more hs).out _ (mem_of_get hk)
    simp only at this
    simp only [step, getOutcome, hk, this]
  unfold knownOutcome at h
  induction more generalizing s with
  | nil => exact h
  | cons op ops ih =>
    simp only [run]
    split
    · rename_i r hr
      refine ih (fun o ho => hmore o (by simp [ho])) r.2 (step_inv hs op hr) ?_
      have hR : ∀ k i, declareResponse k s i = .ok r → get r.2.outcomes a = some n := by
        intro k i hh
        rw [declareResponse_eq hs] at hh
        split at hh
        · cases hh
        · split at hh
          · cases hh
          · injection hh with hh
            subst hh
            exact h
      have hO : ∀ i, get s.outcomes i = none → newOutcome s i = .ok r → get r.2.outcomes a = some n := by
        intro i hi hh
        rw [newOutcome_eq hs] at hh
        split at hh
        · cases hh
        · injection hh with hh
          subst hh
          simp only [get_set]
          rw [if_neg]
          · exact h
          · intro e
            subst e
            rw [hi] at h
            cases h
      cases op with
      | declareResponse i => exact hR _ i hr
      | declareFake i => exact hR _ i hr
      | declareOutcome i =>
        simp only [step, declareOutcome] at hr
        split at hr
        · cases hr
        · rename_i hh
          exact hO i ((not_has_iff _ _).1 (by simpa using hh)) hr
      | getOutcome i =>
        simp only [step, getOutcome] at hr
        split at hr
        · split at hr
          · injection hr with hr; subst hr; exact h
          · cases hr
          · cases hr
        · rename_i hn
          exact hO i hn hr
      | declareFeedback =>
        simp only [step, declareFeedback] at hr
        split at hr
        · injection hr with hr; subst hr; exact h
        · split at hr
          · cases hr
          · injection hr with hr; subst hr; exact h
      | reset => exact absurd rfl (hmore .reset (by simp))
    · exact ih (fun o ho => hmore o (by simp [ho])) s hs h

/-- A history with every kind of clash: the source uses `A`, `A01` and `FEEDBACK` as names of
responses and outcomes. -/
example :
    let s := run St.init [.declareResponse "A01".toList, .declareResponse "A".toList, .reset,
      .declareOutcome "A".toList, .getOutcome "FEEDBACK".toList, .declareFeedback,
      .declareResponse "A".toList]
    get s.responses "A".toList = some "A".toList ∧ get s.outcomes "A".toList = some "A02".toList ∧
      get s.outcomes "FEEDBACK".toList = some "FEEDBACK01".toList ∧
      keys s.declared = ["FEEDBACK".toList, "FEEDBACK01".toList, "A02".toList, "A".toList, "A01".toList] := by
  decide +kernel

/-! ## C14: every variable used is declared -/

/-- An item in which every name handed out so far is declared. -/
structure AllDeclared (s : St) : Prop where
  resp : ∀ p ∈ s.responses, has s.declared p.2 = true
  out : ∀ p ∈ s.outcomes, has s.declared p.2 = true
  fb : s.declareFeedback = true → has s.declared feedbackName = true

theorem has_set {κ β} [DecidableEq κ] (d : List (κ × β)) (k k' : κ) (v : β) :
    has (set d k v) k' = (decide (k' = k) || has d k') := by
  unfold has
  rw [get_set]
  by_cases h : k' = k <;> simp [h]

theorem step_declared {s : St} (hs : ItemInv s) (hd : AllDeclared s) (op : Op) (hop : op ≠ .reset)
    {r : Str × St} (h : step s op = .ok r) : AllDeclared r.2 ∧ has r.2.declared r.1 = true := by
  have hR : ∀ k i, declareResponse k s i = .ok r → AllDeclared r.2 ∧ has r.2.declared r.1 = true := by
    intro k i h
    rw [declareResponse_eq hs] at h
    split at h
    · cases h
    · split at h
      · cases h
      · injection h with h
        subst h
        refine ⟨⟨?_, ?_, ?_⟩, by simp [has_set]⟩
        · intro p hp
          rcases mem_set hp with e | h
          · subst e; simp [has_set]
          · simp [has_set, hd.resp p h]
        · intro p hp; simp [has_set, hd.out p hp]
        · intro h; simp [has_set, hd.fb h]
  have hO : ∀ i, newOutcome s i = .ok r → AllDeclared r.2 ∧ has r.2.declared r.1 = true := by
    intro i h
    rw [newOutcome_eq hs] at h
    split at h
    · cases h
    · injection h with h
      subst h
      refine ⟨⟨?_, ?_, ?_⟩, by simp [has_set]⟩
      · intro p hp; simp [has_set, hd.resp p hp]
      · intro p hp
        rcases mem_set hp with e | h
        · subst e; simp [has_set]
        · simp [has_set, hd.out p h]
      · intro h; simp [has_set, hd.fb h]
  cases op with
  | declareResponse i => exact hR _ i h
  | declareFake i => exact hR _ i h
  | declareOutcome i =>
    simp only [step, declareOutcome] at h
    split at h
    · cases h
    · exact hO i h
  | getOutcome i =>
    simp only [step, getOutcome] at h
    split at h
    · rename_i n hn
      split at h
      · injection h with h; subst h; exact ⟨hd, hd.out _ (mem_of_get hn)⟩
      · cases h
      · cases h
    · exact hO i h
  | declareFeedback =>
    simp only [step, declareFeedback] at h
    split at h
    · rename_i hf; injection h with h; subst h; exact ⟨hd, hd.fb hf⟩
    · split at h
      · cases h
      · rename_i d hdv
        injection h with h
        subst h
        unfold declareVariable at hdv
        split at hdv
        · cases hdv
        · injection hdv with hdv
          subst hdv
          refine ⟨⟨?_, ?_, ?_⟩, by simp [has_set]⟩
          · intro p hp; simp [has_set, hd.resp p hp]
          · intro p hp; simp [has_set, hd.out p hp]
          · intro _; simp [has_set]
  | reset => exact absurd rfl hop

/-- Invariant of the part of the history up to the last reset, in which no fake response and no
feedback have been declared. -/
structure PreInv (s : St) : Prop where
  resp : ∀ p ∈ s.responses, get s.declared p.2 = some .responseDeclaration
  out : ∀ p ∈ s.outcomes, has s.declared p.2 = true
  uniq : ∀ p ∈ s.declared, get s.declared p.1 = some p.2
  fb : s.declareFeedback = false

theorem uniq_set {d : List (Str × DeclKind)} (h : ∀ p ∈ d, get d p.1 = some p.2) (k : Str) (v : DeclKind) :
    ∀ p ∈ set d k v, get (set d k v) p.1 = some p.2 := by
  intro p hp
  rw [get_set]
  unfold Dict.set at hp
  rcases List.mem_cons.1 hp with e | h'
  · subst e; simp
  · have := List.mem_filter.1 h'
    have hne : p.1 ≠ k := by simpa using this.2
    rw [if_neg hne]
    exact h p this.1

theorem get_filter {d : List (Str × DeclKind)} (q : Str × DeclKind → Bool) {k : Str} {v : DeclKind}
    (hu : ∀ p ∈ d, get d p.1 = some p.2) (hv : q (k, v) = true) (h : get d k = some v) :
    get (d.filter q) k = some v := by
  have hm : (k, v) ∈ d.filter q := List.mem_filter.2 ⟨mem_of_get h, hv⟩
  have hk : k ∈ keys (d.filter q) := List.mem_map.2 ⟨_, hm, rfl⟩
  obtain ⟨w, hw⟩ := get_isSome_of_mem hk
  have hm2 := (List.mem_filter.1 (mem_of_get hw)).1
  have := hu _ hm2
  simp only at this
  rw [h] at this
  rw [hw, this]

theorem step_pre {s : St} (hs : ItemInv s) (hp : PreInv s) (op : Op)
    (hop : ∀ i, op ≠ .declareFake i) (hop2 : op ≠ .declareFeedback)
    {r : Str × St} (h : step s op = .ok r) : PreInv r.2 := by
  have hO : ∀ i, newOutcome s i = .ok r → PreInv r.2 := by
    intro i h
    rw [newOutcome_eq hs] at h
    split at h
    · cases h
    · rename_i n hc
      injection h with h
      subst h
      have hn := chooseName_fresh hc
      refine ⟨?_, ?_, uniq_set hp.uniq _ _, hp.fb⟩
      · intro p hpm
        rw [get_set, if_neg]
        · exact hp.resp p hpm
        · intro e
          have := hs.resp p hpm
          rw [e, hn] at this
          cases this
      · intro p hpm
        rcases mem_set hpm with e | h
        · subst e; simp [has_set]
        · simp [has_set, hp.out p h]
  cases op with
  | declareResponse i =>
    simp only [step] at h
    rw [declareResponse_eq hs] at h
    split at h
    · cases h
    · split at h
      · cases h
      · rename_i n hc
        injection h with h
        subst h
        have hn := chooseName_fresh hc
        refine ⟨?_, ?_, uniq_set hp.uniq _ _, hp.fb⟩
        · intro p hpm
          rcases mem_set hpm with e | h
          · subst e; simp [get_set]
          · rw [get_set, if_neg]
            · exact hp.resp p h
            · intro e
              have := hs.resp p h
              rw [e, hn] at this
              cases this
        · intro p hpm; simp [has_set, hp.out p hpm]
  | declareFake i => exact absurd rfl (hop i)
  | declareOutcome i =>
    simp only [step, declareOutcome] at h
    split at h
    · cases h
    · exact hO i h
  | getOutcome i =>
    simp only [step, getOutcome] at h
    split at h
    · split at h
      · injection h with h; subst h; exact hp
      · cases h
      · cases h
    · exact hO i h
  | declareFeedback => exact absurd rfl hop2
  | reset =>
    simp only [step] at h
    injection h with h
    subst h
    refine ⟨?_, by simp [resetResprocessing], ?_, hp.fb⟩
    · intro p hpm
      exact get_filter _ hp.uniq (by simp) (hp.resp p hpm)
    · intro p hpm
      simp only [resetResprocessing] at hpm ⊢
      have := List.mem_filter.1 hpm
      exact get_filter _ hp.uniq this.2 (hp.uniq p this.1)

/-- **C14.** If no split-up response ("fake" response, used for several blanks that share one
response) and no feedback is declared before the last `<resprocessing>` starts, then every identifier
handed out — by any further declaration or outcome lookup, by looking up any response, or for
feedback — is declared in the item at that moment.  Without the hypothesis the claim is false: see
`undeclared_fake_response` and `undeclared_feedback`. -/
theorem used_variables_declared_partial (pre post : List Op)
    (hpre : ∀ op ∈ pre, (∀ i, op ≠ .declareFake i) ∧ op ≠ .declareFeedback)
    (hpost : ∀ op ∈ post, op ≠ .reset) :
    let s := run St.init (pre ++ post)
    (∀ a n, getResponse s a = .ok (some n) → has s.declared n = true) ∧
    (∀ op n s', op ≠ .reset → step s op = .ok (n, s') → has s'.declared n = true) := by
  intro s
  have hrun : ∀ (l m : List Op) (s : St), run s (l ++ m) = run (run s l) m := by
    intro l
    induction l with
    | nil => intro m s; rfl
    | cons op l ih =>
      intro m s
      simp only [List.cons_append, run]
      split <;> exact ih m _
  have h1 : ∀ (l : List Op) (s : St), ItemInv s → PreInv s →
      (∀ op ∈ l, (∀ i, op ≠ .declareFake i) ∧ op ≠ .declareFeedback) → PreInv (run s l) := by
    intro l
    induction l with
    | nil => intro s _ hp _; exact hp
    | cons op l ih =>
      intro s hs hp hl
      simp only [run]
      have := hl op (by simp)
      split
      · rename_i r hr
        exact ih _ (step_inv hs op hr) (step_pre hs hp op this.1 this.2 hr) (fun o ho => hl o (by simp [ho]))
      · exact ih _ hs hp (fun o ho => hl o (by simp [ho]))
  have h2 : ∀ (l : List Op) (s : St), ItemInv s → AllDeclared s → (∀ op ∈ l, op ≠ .reset) →
      AllDeclared (run s l) := by
    intro l
    induction l with
    | nil => intro s _ hp _; exact hp
    | cons op l ih =>
      intro s hs hp hl
      simp only [run]
      split
      · rename_i r hr
        exact ih _ (step_inv hs op hr) (step_declared hs hp op (hl op (by simp)) hr).1
          (fun o ho => hl o (by simp [ho]))
      · exact ih _ hs hp (fun o ho => hl o (by simp [ho]))
  have hp0 : PreInv St.init := by
    refine ⟨?_, ?_, ?_, rfl⟩ <;> (intro p hp; exact absurd hp (List.not_mem_nil))
  have hpre' := h1 pre St.init itemInv_init hp0 hpre
  have hs1 : ItemInv (run St.init pre) := run_inv pre itemInv_init
  have hd1 : AllDeclared (run St.init pre) := by
    refine ⟨?_, hpre'.out, ?_⟩
    · intro p hp; exact (has_iff _ _).2 ⟨_, hpre'.resp p hp⟩
    · intro h; rw [hpre'.fb] at h; cases h
  have hs : ItemInv s := run_inv _ itemInv_init
  have hd : AllDeclared s := by
    show AllDeclared (run St.init (pre ++ post))
    rw [hrun]
    exact h2 post _ hs1 hd1 hpost
  constructor
  · intro a n h
    rw [getResponse_eq hs] at h
    injection h with h
    exact hd.resp _ (mem_of_get h)
  · intro op n s' hop h
    exact (step_declared hs hd op hop h).2

example :
    let s := run St.init ([.declareResponse "R".toList, .reset, .declareOutcome "SCORE".toList, .reset] ++
      [.declareOutcome "SCORE".toList, .declareFeedback])
    keys s.declared = ["FEEDBACK".toList, "SCORE".toList, "R".toList] := by decide +kernel

/-- **C14 refuted (1).** A response that is split over several blanks is declared while the
presentation is read, i.e. before `<resprocessing>` starts, which drops the declaration while the
response remains usable in conditions. -/
theorem undeclared_fake_response :
    let s := run St.init [.declareFake "FIB".toList, .reset, .declareOutcome "SCORE".toList]
    getResponse s "FIB".toList = .ok (some "FIB".toList) ∧ has s.declared "FIB".toList = false := by
  decide +kernel

/-- **C14 refuted (2).** With two `<resprocessing>` sections that both display feedback, the written
item uses `FEEDBACK` without declaring it. -/
theorem undeclared_feedback :
    let s := run St.init [.reset, .declareFeedback, .reset]
    (match step s .declareFeedback with
      | .ok r => decide (r.1 = "FEEDBACK".toList) && !(has r.2.declared r.1)
      | .error _ => false) = true := by
  decide +kernel

end Verif.Props
