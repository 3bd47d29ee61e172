import Verif.Props.QtiTypes

/-!
# Session variables under response processing

What assignments do to the variables, that rules change nothing but outcomes and keep types, and that
the result of an attempt does not depend on the outcomes of earlier ones.
-/

namespace Verif.Props

open Verif Verif.Qti Verif.Spec

set_option linter.unusedVariables false

/-! ## Assignment -/

theorem mem_distinct (a : Atom) : ∀ l : List Atom, a ∈ distinct l ↔ a ∈ l
  | [] => Iff.rfl
  | b :: l => by
    rw [distinct, List.mem_cons, List.mem_cons, List.mem_filter, mem_distinct a l]
    by_cases h : a = b <;> simp [h]

theorem distinct_nodup : ∀ l : List Atom, (distinct l).Nodup
  | [] => List.nodup_nil
  | b :: l => by
    rw [distinct, List.nodup_cons]
    refine ⟨?_, (distinct_nodup l).filter _⟩
    intro h
    have := (List.mem_filter.mp h).2
    simp at this

theorem distinct_id : ∀ {l : List Atom}, l.Nodup → distinct l = l
  | [], _ => rfl
  | b :: l, h => by
    rw [List.nodup_cons] at h
    rw [distinct, distinct_id h.2, List.filter_eq_self.mpr]
    intro a ha
    simp
    rintro rfl
    exact h.1 ha

theorem distinct_typed {bt : Option BaseType} {as : List Atom} (h : AllTyped bt as) : AllTyped bt (distinct as) :=
  fun a ha => h a ((mem_distinct a as).mp ha)

/-- The value put into a variable is well typed and keeps cardinality and base type of the variable. -/
theorem copyInto_typed {v value w : Value} (hv : WellTyped v) (hx : WellTyped value)
    (hb : value.bt = none ∨ value.bt = v.bt)
    (h : copyInto v value = .ok w) : WellTyped w ∧ w.card = v.card ∧ w.bt = v.bt := by
  unfold copyInto at h
  split at h
  · split at h <;> cases h
    · exact ⟨.unknown, rfl, rfl⟩
    · exact ⟨.container _, rfl, rfl⟩
    · exact ⟨.null _, rfl, rfl⟩
    · exact ⟨.ordered (by intro a ha; cases ha), rfl, rfl⟩
    · exact ⟨.multiple (by intro a ha; cases ha), rfl, rfl⟩
    · exact ⟨.record (by intro a ha; cases ha), rfl, rfl⟩
  · split at h
    · obtain ⟨x, h1, h⟩ := bind_ok h
      cases h
      cases hx with
      | single ht =>
        cases x with
        | none => exact ⟨.null _, rfl, rfl⟩
        | some b => exact ⟨.single (fromAtom_typed ht h1), rfl, rfl⟩
    · rename_i bt _ _ vs _
      obtain ⟨ws, h1, h⟩ := bind_ok h
      cases h
      refine ⟨.ordered (containerOf_typed bt vs ws ?_ h1), rfl, rfl⟩
      cases hx with
      | ordered ht =>
        intro a ha
        obtain ⟨b, rfl, h2, _⟩ := ht a ha
        rcases hb with hb | hb
        · cases hb
        · exact ⟨b, hb.symm, h2⟩
    · rename_i bt _ _ vs _
      obtain ⟨ws, h1, h⟩ := bind_ok h
      cases h
      refine ⟨.multiple (containerOf_typed bt _ ws ?_ h1), rfl, rfl⟩
      cases hx with
      | multiple ht =>
        intro a ha
        obtain ⟨b, rfl, h2, _⟩ := ht a ((mem_distinct a vs).mp ha)
        rcases hb with hb | hb
        · cases hb
        · exact ⟨b, hb.symm, h2⟩
    · cases h
      exact ⟨hx, rfl, rfl⟩
    · cases h

theorem set_ok {st st' : State} {name : Str} {value : Value} (h : st.set name value = .ok st') :
    ∃ v w, st.get name = .ok v ∧ (value.card = none ∨ value.card = v.card) ∧
      (value.bt = none ∨ value.bt = v.bt) ∧ copyInto v value = .ok w ∧
      st' = { st with vars := Dict.set st.vars name w } := by
  unfold State.set at h
  obtain ⟨v, hv, h⟩ := bind_ok h
  by_cases h1 : value.card ≠ none ∧ value.card ≠ v.card
  · rw [if_pos h1] at h
    cases h
  rw [if_neg h1] at h
  dsimp only at h
  by_cases h2 : value.bt ≠ none ∧ value.bt ≠ v.bt
  · rw [if_pos h2] at h
    cases h
  rw [if_neg h2] at h
  obtain ⟨w, hw, h⟩ := bind_ok h
  cases h
  refine ⟨v, w, hv, ?_, ?_, hw, rfl⟩
  · rcases Classical.em (value.card = none) with h | h
    · exact Or.inl h
    · exact Or.inr (Classical.byContradiction fun hne => h1 ⟨h, hne⟩)
  · rcases Classical.em (value.bt = none) with h | h
    · exact Or.inl h
    · exact Or.inr (Classical.byContradiction fun hne => h2 ⟨h, hne⟩)

theorem get_eq {st : State} {n : Str} {v : Value} : st.get n = .ok v ↔ Dict.get st.vars n = some v := by
  unfold State.get
  cases Dict.get st.vars n with
  | none => simp
  | some w => simp

/-- A value that an assignment keeps: no member of a multiple container occurs twice, a single integer
fits in 32 bits. -/
def Keepable : Value → Prop
  | .single _ (some a) => InRange a
  | .multiple _ as => as.Nodup
  | _ => True

theorem copyInto_same {v value : Value} (hx : WellTyped value) (hk : Keepable value)
    (hc : value.card = v.card) (hb : value.bt = v.bt) (hcard : value.card ≠ none) : copyInto v value = .ok value := by
  cases hx with
  | unknown => exact absurd rfl hcard
  | container bt => exact absurd rfl hcard
  | null bt =>
    cases v <;> simp [Value.card] at hc
    simp [Value.bt] at hb
    subst hb
    rfl
  | @single bt a ht =>
    cases v <;> simp [Value.card] at hc
    simp [Value.bt] at hb
    subst hb
    unfold copyInto
    rw [if_neg (by simp [Value.isNull])]
    simp only [fromAtom_same ht hk]
    rfl
  | @ordered bt as ht =>
    cases v <;> simp [Value.card] at hc
    simp [Value.bt] at hb
    subst hb
    unfold copyInto
    by_cases hn : as = []
    · subst hn; rfl
    · rw [if_neg (by simp [Value.isNull, hn])]
      simp only [containerOf_same ht]
      rfl
  | @multiple bt as ht =>
    cases v <;> simp [Value.card] at hc
    simp [Value.bt] at hb
    subst hb
    unfold copyInto
    by_cases hn : as = []
    · subst hn; rfl
    · rw [if_neg (by simp [Value.isNull, hn])]
      simp only [distinct_id hk, containerOf_same ht]
      rfl
  | @record fs ht =>
    cases v <;> simp [Value.card] at hc
    unfold copyInto
    by_cases hn : fs = []
    · subst hn; rfl
    · rw [if_neg (by simp [Value.isNull, hn])]

/-- An assigned value reads back, and no other variable changes, unless a member of a multiple container
occurs twice or a number does not fit. -/
theorem assigned_value_reads_back_partial (st : State) (name : Str) (old value : Value)
    (hold : st.get name = .ok old) (ht : WellTyped value) (hk : Keepable value)
    (hcard : value.card = old.card) (hbt : value.bt = old.bt) (hc : value.card ≠ none) :
    ∃ st', st.set name value = .ok st' ∧ st'.get name = .ok value ∧
      (∀ other, other ≠ name → st'.get other = st.get other) ∧ st'.decls = st.decls := by
  refine ⟨{ st with vars := Dict.set st.vars name value }, ?_, ?_, ?_, rfl⟩
  · unfold State.set
    rw [hold]
    simp only [bind, Except.bind]
    rw [if_neg (fun h => h.2 hcard)]
    simp only [pure, Except.pure]
    rw [if_neg (fun h => h.2 hbt)]
    rw [copyInto_same ht hk hcard hbt hc]
  · rw [get_eq]
    show Dict.get (Dict.set _ _ _) _ = _
    rw [Dict.get_set, if_pos rfl]
  · intro other ho
    unfold State.get
    dsimp only
    rw [Dict.get_set, if_neg ho]

/-- How often a member of a multiple container occurs is lost by assignment. -/
theorem multiplicity_lost :
    ∃ (st st' : State) (value : Value), GoodState st ∧ WellTyped value ∧
      st.set ['X'] value = .ok st' ∧ members value = [.int 1, .int 1] ∧
      st'.get ['X'] = .ok (.multiple (some .integer) [.int 1]) := by
  refine ⟨⟨[(['X'], .multiple (some .integer) [])], []⟩, ⟨[(['X'], .multiple (some .integer) [.int 1])], []⟩,
    .multiple (some .integer) [.int 1, .int 1], ?_, ?_, by rfl, by rfl, by rfl⟩
  · intro p hp
    simp at hp
    subst hp
    exact .multiple (by intro a ha; cases ha)
  · refine .multiple ?_
    intro a ha
    simp at ha
    subst ha
    exact ⟨_, rfl, .integer 1, by simp [InRange, Fits]⟩

/-! ## Rules change outcomes only -/

theorem good_set {st : State} (hst : GoodState st) {n : Str} {w : Value} (hw : WellTyped w) :
    GoodState { st with vars := Dict.set st.vars n w } := by
  intro p hp
  simp only [Dict.set] at hp
  rcases List.mem_cons.mp hp with h | h
  · subst h; exact hw
  · exact hst p (List.mem_filter.mp h).1

/-- What may happen to the variables of a session: all stay, with their cardinality and base type, and
only outcomes change. -/
structure OnlyOutcomes (st st' : State) : Prop where
  decls : st'.decls = st.decls
  absent : ∀ n, Dict.get st.vars n = none → Dict.get st'.vars n = none
  kept : ∀ n v, Dict.get st.vars n = some v → ∃ v', Dict.get st'.vars n = some v' ∧ v'.card = v.card ∧
    v'.bt = v.bt ∧ (st.isOutcome n ≠ .ok true → v' = v)

theorem onlyOutcomes_refl (st : State) : OnlyOutcomes st st :=
  ⟨rfl, fun _ h => h, fun n v h => ⟨v, h, rfl, rfl, fun _ => rfl⟩⟩

theorem onlyOutcomes_has {a b : State} (h1 : OnlyOutcomes a b) (n : Str) : Dict.has b.vars n = Dict.has a.vars n := by
  unfold Dict.has
  cases h : Dict.get a.vars n with
  | none => rw [h1.absent n h]
  | some v =>
    obtain ⟨v', h', _⟩ := h1.kept n v h
    rw [h']
    rfl

theorem onlyOutcomes_isOutcome {a b : State} (h1 : OnlyOutcomes a b) (n : Str) : b.isOutcome n = a.isOutcome n := by
  unfold State.isOutcome State.getDecl
  rw [onlyOutcomes_has h1, h1.decls]

theorem onlyOutcomes_trans {a b c : State} (h1 : OnlyOutcomes a b) (h2 : OnlyOutcomes b c) : OnlyOutcomes a c := by
  refine ⟨h2.decls.trans h1.decls, fun n h => h2.absent n (h1.absent n h), ?_⟩
  intro n v h
  obtain ⟨v', h3, h4, h5, h6⟩ := h1.kept n v h
  obtain ⟨v'', h7, h8, h9, h10⟩ := h2.kept n v' h3
  refine ⟨v'', h7, h8.trans h4, h9.trans h5, ?_⟩
  intro hn
  rw [h10 (by rw [onlyOutcomes_isOutcome h1]; exact hn), h6 hn]

theorem setOutcome_effect {st st' : State} (hst : GoodState st) {i : Str} {e : Option Expr}
    (h : setOutcome st i e = .ok st') : GoodState st' ∧ OnlyOutcomes st st' := by
  unfold setOutcome at h
  split at h
  · cases h
  · rename_i e
    obtain ⟨value, hval, h⟩ := bind_ok h
    obtain ⟨o, ho, h⟩ := bind_ok h
    cases o with
    | false => cases h
    | true =>
      simp only [if_true] at h
      obtain ⟨v, w, h1, h2, h3, h4, rfl⟩ := set_ok h
      have hv := get_typed hst h1
      have hx := eval_typed st hst e value hval
      obtain ⟨t1, t2, t3⟩ := copyInto_typed hv hx h3 h4
      refine ⟨good_set hst t1, rfl, ?_, ?_⟩
      · intro n hn
        show Dict.get (Dict.set _ _ _) _ = _
        rw [Dict.get_set]
        by_cases he : n = i
        · subst he
          rw [get_eq.mp h1] at hn
          cases hn
        · rw [if_neg he]; exact hn
      · intro n u hu
        show ∃ v', Dict.get (Dict.set _ _ _) _ = _ ∧ _
        rw [Dict.get_set]
        by_cases he : n = i
        · subst he
          rw [get_eq.mp h1] at hu
          cases hu
          exact ⟨w, by rw [if_pos rfl], t2, t3, fun hc => absurd ho hc⟩
        · rw [if_neg he]
          exact ⟨u, hu, rfl, rfl, fun _ => rfl⟩

mutual
theorem runRule_effect : ∀ (r : Rule) (st st' : State) (b : Bool), GoodState st → runRule st r = .ok (st', b) →
    GoodState st' ∧ OnlyOutcomes st st'
  | .setOutcomeValue i e, st, st', b, hst, h => by
    rw [runRule] at h
    obtain ⟨s, hs, h⟩ := bind_ok h
    cases h
    exact setOutcome_effect hst hs
  | .exitResponse, st, st', b, hst, h => by
    rw [runRule] at h
    cases h
    exact ⟨hst, onlyOutcomes_refl st⟩
  | .condition branches els, st, st', b, hst, h => by
    rw [runRule] at h
    obtain ⟨o, ho, h⟩ := bind_ok h
    cases o with
    | some p =>
      cases h
      exact runBranches_effect branches st st' b hst ho
    | none => exact runRules_effect els st st' b hst h
theorem runBranches_effect : ∀ (bs : List Branch) (st st' : State) (b : Bool), GoodState st →
    runBranches st bs = .ok (some (st', b)) → GoodState st' ∧ OnlyOutcomes st st'
  | [], st, st', b, hst, h => by
    rw [runBranches] at h
    cases h
  | .mk e rules :: rest, st, st', b, hst, h => by
    rw [runBranches] at h
    obtain ⟨t, ht, h⟩ := bind_ok h
    cases t with
    | true =>
      simp only [if_true] at h
      obtain ⟨p, hp, h⟩ := bind_ok h
      cases h
      exact runRules_effect rules st st' b hst hp
    | false => exact runBranches_effect rest st st' b hst h
theorem runRules_effect : ∀ (rs : List Rule) (st st' : State) (b : Bool), GoodState st →
    runRules st rs = .ok (st', b) → GoodState st' ∧ OnlyOutcomes st st'
  | [], st, st', b, hst, h => by
    rw [runRules] at h
    cases h
    exact ⟨hst, onlyOutcomes_refl st⟩
  | r :: rs, st, st', b, hst, h => by
    rw [runRules] at h
    obtain ⟨⟨s, t⟩, hs, h⟩ := bind_ok h
    obtain ⟨h1, h2⟩ := runRule_effect r st s t hst hs
    cases t with
    | true =>
      cases h
      exact ⟨h1, h2⟩
    | false =>
      obtain ⟨h3, h4⟩ := runRules_effect rs s st' b h1 h
      exact ⟨h3, onlyOutcomes_trans h2 h4⟩
end

/-- The variable is declared as an outcome, or is the built-in outcome. -/
def DeclaredOutcome (st : State) (n : Str) : Prop :=
  (∃ d, Dict.get st.decls n = some d ∧ d.kind = .outcome) ∨
    (Dict.get st.decls n = none ∧ n = "completionStatus".toList)

theorem declaredOutcome_of {st : State} {n : Str} (h : st.isOutcome n = .ok true) : DeclaredOutcome st n := by
  unfold State.isOutcome State.getDecl at h
  split at h
  · simp only [bind, Except.bind, pure, Except.pure] at h
    cases hd : Dict.get st.decls n with
    | none =>
      rw [hd] at h
      exact .inr ⟨hd, of_decide_eq_true (Except.ok.inj h)⟩
    | some d =>
      rw [hd] at h
      exact .inl ⟨d, hd, of_decide_eq_true (Except.ok.inj h)⟩
  · cases h

/-- Response processing that completes leaves every response, template and built-in variable other than
`completionStatus` as it was; every outcome keeps its cardinality and base type and holds a value of that
type; no variable appears or disappears; no declaration changes. -/
theorem rules_change_outcomes_only (st st' : State) (rules : List Rule) (hst : GoodState st)
    (h : run st rules = .ok st') :
    GoodState st' ∧
    (∀ n v, st.get n = .ok v → ∃ v', st'.get n = .ok v' ∧ v'.card = v.card ∧ v'.bt = v.bt) ∧
    (∀ n, ¬ DeclaredOutcome st n → st'.get n = st.get n) ∧ st'.decls = st.decls := by
  unfold run at h
  obtain ⟨⟨s, t⟩, hs, h⟩ := bind_ok h
  cases h
  obtain ⟨h1, h2⟩ := runRules_effect rules st s t hst hs
  refine ⟨h1, ?_, ?_, h2.decls⟩
  · intro n v hv
    obtain ⟨v', a1, a2, a3, _⟩ := h2.kept n v (get_eq.mp hv)
    exact ⟨v', get_eq.mpr a1, a2, a3⟩
  · intro n hn
    unfold State.get
    cases hg : Dict.get st.vars n with
    | none => rw [h2.absent n hg]
    | some v =>
      obtain ⟨v', a1, _, _, a4⟩ := h2.kept n v hg
      rw [a1, a4 (fun ho => hn (declaredOutcome_of ho))]

/-! ## Sessions that agree -/

/-- The two sessions have the same declarations and the same values. -/
structure Agree (a b : State) : Prop where
  decls : a.decls = b.decls
  vars : ∀ n, Dict.get a.vars n = Dict.get b.vars n

theorem agree_get {a b : State} (h : Agree a b) (n : Str) : a.get n = b.get n := by
  unfold State.get
  rw [h.vars n]

theorem agree_getDecl {a b : State} (h : Agree a b) (n : Str) : a.getDecl n = b.getDecl n := by
  unfold State.getDecl Dict.has
  rw [h.vars n, h.decls]

theorem agree_evalLeaf {a b : State} (h : Agree a b) (l : Leaf) : evalLeaf a l = evalLeaf b l := by
  cases l <;> simp only [evalLeaf, responseDecl, agree_get h, agree_getDecl h]

mutual
theorem agree_eval {a b : State} (h : Agree a b) : ∀ e : Expr, eval a e = eval b e
  | .leaf l => by rw [eval, eval, agree_evalLeaf h]
  | .node op args => by
    by_cases hop : op = .custom
    · subst hop; rfl
    · rw [eval_node a op args hop, eval_node b op args hop, agree_evalAll h args]
theorem agree_evalAll {a b : State} (h : Agree a b) : ∀ es : List Expr, evalAll a es = evalAll b es
  | [] => rfl
  | e :: es => by rw [evalAll, evalAll, agree_eval h e, agree_evalAll h es]
end

/-- Both fail in the same way, or both succeed with results related by `R`. -/
def SameOutcome {α} (R : α → α → Prop) : Except Err α → Except Err α → Prop
  | .ok a, .ok b => R a b
  | .error e, .error f => e = f
  | _, _ => False

theorem sameOutcome_bind {α β} {R : α → α → Prop} {S : β → β → Prop} {x y : Except Err α} {f g : α → Except Err β}
    (h : SameOutcome R x y) (hf : ∀ a b, R a b → SameOutcome S (f a) (g b)) :
    SameOutcome S (x >>= f) (y >>= g) := by
  cases x with
  | error e =>
    cases y with
    | error f => exact h
    | ok b => cases h
  | ok a =>
    cases y with
    | error f => cases h
    | ok b => exact hf a b h

theorem agree_dictSet {a b : State} (h : Agree a b) (n : Str) (w : Value) :
    Agree { a with vars := Dict.set a.vars n w } { b with vars := Dict.set b.vars n w } := by
  refine ⟨h.decls, ?_⟩
  intro m
  show Dict.get (Dict.set _ _ _) _ = Dict.get (Dict.set _ _ _) _
  rw [Dict.get_set, Dict.get_set, h.vars]

theorem agree_set {a b : State} (h : Agree a b) (n : Str) (value : Value) :
    SameOutcome Agree (a.set n value) (b.set n value) := by
  unfold State.set
  rw [agree_get h]
  cases b.get n with
  | error e => exact rfl
  | ok v =>
    simp only [bind, Except.bind]
    by_cases h1 : value.card ≠ none ∧ value.card ≠ v.card
    · rw [if_pos h1, if_pos h1]; exact rfl
    · rw [if_neg h1, if_neg h1]
      simp only [pure, Except.pure]
      by_cases h2 : value.bt ≠ none ∧ value.bt ≠ v.bt
      · rw [if_pos h2, if_pos h2]; exact rfl
      · rw [if_neg h2, if_neg h2]
        cases copyInto v value with
        | error e => exact rfl
        | ok w => exact agree_dictSet h n w

theorem agree_setOutcome {a b : State} (h : Agree a b) (n : Str) (e : Option Expr) :
    SameOutcome Agree (setOutcome a n e) (setOutcome b n e) := by
  cases e with
  | none => exact rfl
  | some e =>
    simp only [setOutcome, State.isOutcome, agree_getDecl h, agree_eval h]
    cases eval b e with
    | error e => exact rfl
    | ok v =>
      simp only [bind, Except.bind]
      cases b.getDecl n with
      | error e => exact rfl
      | ok d =>
        cases d with
        | none =>
          simp only [pure, Except.pure]
          split
          · exact agree_set h n v
          · exact rfl
        | some d =>
          simp only [pure, Except.pure]
          split
          · exact agree_set h n v
          · exact rfl

theorem agree_branchTest {a b : State} (h : Agree a b) (e : Option Expr) : branchTest a e = branchTest b e := by
  cases e with
  | none => rfl
  | some e => simp only [branchTest, agree_eval h]

/-- Related results of a rule. -/
def AgreeP (p q : State × Bool) : Prop := Agree p.1 q.1 ∧ p.2 = q.2

/-- Related results of the branches. -/
def AgreeO : Option (State × Bool) → Option (State × Bool) → Prop
  | none, none => True
  | some p, some q => AgreeP p q
  | _, _ => False

mutual
theorem agree_runRule : ∀ (r : Rule) (a b : State), Agree a b → SameOutcome AgreeP (runRule a r) (runRule b r)
  | .setOutcomeValue i e, a, b, h => by
    rw [runRule, runRule]
    exact sameOutcome_bind (agree_setOutcome h i e) (fun _ _ h => ⟨h, rfl⟩)
  | .exitResponse, a, b, h => by
    rw [runRule, runRule]
    exact ⟨h, rfl⟩
  | .condition branches els, a, b, h => by
    rw [runRule, runRule]
    refine sameOutcome_bind (agree_runBranches branches a b h) ?_
    intro o o' ho
    cases o with
    | none =>
      cases o' with
      | none => exact agree_runRules els a b h
      | some _ => cases ho
    | some p =>
      cases o' with
      | none => cases ho
      | some q => exact ho
theorem agree_runBranches : ∀ (bs : List Branch) (a b : State), Agree a b →
    SameOutcome AgreeO (runBranches a bs) (runBranches b bs)
  | [], a, b, h => by
    rw [runBranches, runBranches]
    exact trivial
  | .mk e rules :: rest, a, b, h => by
    rw [runBranches, runBranches, agree_branchTest h]
    cases branchTest b e with
    | error e => exact rfl
    | ok t =>
      cases t with
      | true =>
        show SameOutcome AgreeO (runRules a rules >>= fun p => .ok (some p)) (runRules b rules >>= fun p => .ok (some p))
        exact sameOutcome_bind (agree_runRules rules a b h) (fun _ _ h => h)
      | false => exact agree_runBranches rest a b h
theorem agree_runRules : ∀ (rs : List Rule) (a b : State), Agree a b →
    SameOutcome AgreeP (runRules a rs) (runRules b rs)
  | [], a, b, h => by
    rw [runRules, runRules]
    exact ⟨h, rfl⟩
  | r :: rs, a, b, h => by
    rw [runRules, runRules]
    refine sameOutcome_bind (agree_runRule r a b h) ?_
    rintro ⟨p, t⟩ ⟨q, t'⟩ ⟨h1, h2⟩
    dsimp only at h1 h2 ⊢
    subst h2
    cases t with
    | true => exact ⟨h1, rfl⟩
    | false => exact agree_runRules rs p q h1
end

theorem agree_run {a b : State} (h : Agree a b) (rules : List Rule) : SameOutcome Agree (run a rules) (run b rules) := by
  unfold run
  exact sameOutcome_bind (agree_runRules rules a b h) (fun _ _ h => h.1)

/-! ## Attempts -/

/-- The variables that are not among the names have the same values. -/
structure AgreeExcept (names : List Str) (a b : State) : Prop where
  decls : a.decls = b.decls
  vars : ∀ n, n ∉ names → Dict.get a.vars n = Dict.get b.vars n

theorem setOutcomeDefaults_agree : ∀ (ods : List Str) (todo : List Str) (a b : State),
    AgreeExcept todo a b → (∀ n ∈ todo, n ∈ ods) → (∀ o ∈ ods, o ++ ".DEFAULT".toList ∉ todo) →
    SameOutcome Agree (setOutcomeDefaults a ods) (setOutcomeDefaults b ods)
  | [], todo, a, b, h, ht, hd => by
    refine ⟨h.decls, fun n => h.vars n ?_⟩
    intro hn
    cases ht n hn
  | od :: ods, todo, a, b, h, ht, hd => by
    rw [setOutcomeDefaults, setOutcomeDefaults]
    have hg : a.get (od ++ ".DEFAULT".toList) = b.get (od ++ ".DEFAULT".toList) := by
      unfold State.get
      rw [h.vars _ (hd od (List.mem_cons_self ..))]
    rw [hg]
    cases b.get (od ++ ".DEFAULT".toList) with
    | error e => exact rfl
    | ok d =>
      simp only [bind, Except.bind]
      cases copyValue d with
      | error e => exact rfl
      | ok v =>
        refine setOutcomeDefaults_agree ods (todo.filter (· ≠ od)) _ _ ⟨h.decls, ?_⟩ ?_ ?_
        · intro n hn
          show Dict.get (Dict.set _ _ _) _ = Dict.get (Dict.set _ _ _) _
          rw [Dict.get_set, Dict.get_set]
          by_cases he : n = od
          · rw [if_pos he, if_pos he]
          · rw [if_neg he, if_neg he]
            exact h.vars n (fun hm => hn (List.mem_filter.mpr ⟨hm, by simp [he]⟩))
        · intro n hn
          have := List.mem_filter.mp hn
          rcases List.mem_cons.mp (ht n this.1) with he | he
          · exact absurd he (by simpa using this.2)
          · exact he
        · intro o ho hm
          exact hd o (List.mem_cons_of_mem _ ho) (List.mem_filter.mp hm).1

/-- The result of an attempt at a non-adaptive item does not depend on the values that earlier attempts
left in the declared outcomes: sessions that differ in nothing else end with the same values of all
variables, or fail alike.  (No declared outcome may have the name under which the default of another is
kept.) -/
theorem attempts_independent_partial (outcomes : List Str) (rules : List Rule) (a b : State)
    (hab : AgreeExcept outcomes a b) (hn : ∀ o ∈ outcomes, o ++ ".DEFAULT".toList ∉ outcomes) :
    match endAttempt false outcomes rules a, endAttempt false outcomes rules b with
    | .ok a', .ok b' => ∀ n, a'.get n = b'.get n
    | .error e, .error f => e = f
    | _, _ => False := by
  have h : SameOutcome Agree (endAttempt false outcomes rules a) (endAttempt false outcomes rules b) := by
    unfold endAttempt
    exact sameOutcome_bind (setOutcomeDefaults_agree outcomes outcomes a b hab (fun _ h => h) hn)
      (fun _ _ h => agree_run h rules)
  revert h
  cases endAttempt false outcomes rules a with
  | error e =>
    cases endAttempt false outcomes rules b with
    | error f => exact fun h => h
    | ok b' => exact fun h => h
  | ok a' =>
    cases endAttempt false outcomes rules b with
    | error f => exact fun h => h
    | ok b' => exact fun h n => agree_get h n

/-- What an outcome holds when processing begins, by its default: the default; without one, zero for a single number. -/
inductive BeginsWith : Value → Value → Prop where
  | given {d} : d.isNull = false → BeginsWith d d
  | integer : BeginsWith (.single (some .integer) none) (.single (some .integer) (some (.int 0)))
  | float : BeginsWith (.single (some .float) none) (.single (some .float) (some (.num 0)))
  | null {d} : d.isNull = true → (∀ bt, d = .single (some bt) none → bt ≠ .integer ∧ bt ≠ .float) → BeginsWith d d

theorem copyValue_same {d v : Value} (ht : WellTyped d) (hk : Keepable d) (h : copyValue d = .ok v) : v = d := by
  unfold copyValue at h
  cases hc : d.card with
  | none => rw [hc] at h; cases h
  | some c =>
    rw [hc] at h
    obtain ⟨w, hw, h⟩ := bind_ok h
    have hw' : d.card = w.card ∧ d.bt = w.bt := by
      cases d with
      | unknown => cases hc
      | container => cases hc
      | single bt o =>
        cases hc
        have hw : newNull bt = .ok w := hw
        unfold newNull at hw
        split at hw
        · cases hw
        · cases Except.ok.inj hw; exact ⟨rfl, rfl⟩
      | ordered bt as => cases hc; cases Except.ok.inj hw; exact ⟨rfl, rfl⟩
      | multiple bt as => cases hc; cases Except.ok.inj hw; exact ⟨rfl, rfl⟩
      | record fs => cases hc; cases Except.ok.inj hw; exact ⟨rfl, rfl⟩
    rw [copyInto_same ht hk hw'.1 hw'.2 (by rw [hc]; simp)] at h
    exact (Except.ok.inj h).symm

theorem begins_zeroIfNull (d : Value) : BeginsWith d (zeroIfNull d) := by
  unfold zeroIfNull
  split
  · exact .integer
  · exact .float
  · rename_i h1 h2
    cases hn : d.isNull with
    | false => exact .given hn
    | true => exact .null hn (fun bt hd => ⟨fun e => h1 (by rw [hd, e]), fun e => h2 (by rw [hd, e])⟩)

theorem setOutcomeDefaults_begin (ods : List Str) (st st' : State) (hclash : ∀ o ∈ ods, o ++ ".DEFAULT".toList ∉ ods)
    (h : setOutcomeDefaults st ods = .ok st') :
    (∀ n, n ∉ ods → st'.get n = st.get n) ∧
    ∀ o ∈ ods, ∀ d, st.get (o ++ ".DEFAULT".toList) = .ok d → WellTyped d → Keepable d →
      ∃ v, st'.get o = .ok v ∧ BeginsWith d v := by
  induction ods generalizing st with
  | nil =>
    cases Except.ok.inj h
    exact ⟨fun _ _ => rfl, fun o ho => by cases ho⟩
  | cons od ods ih =>
    rw [setOutcomeDefaults] at h
    obtain ⟨d, hd, h⟩ := bind_ok h
    obtain ⟨v, hv, h⟩ := bind_ok h
    obtain ⟨h1, h2⟩ := ih _ (fun o ho hm => hclash o (List.mem_cons_of_mem _ ho) (List.mem_cons_of_mem _ hm)) h
    have other : ∀ n, n ≠ od → State.get { st with vars := Dict.set st.vars od (zeroIfNull v) } n = st.get n := by
      intro n hn
      unfold State.get
      dsimp only
      rw [Dict.get_set, if_neg hn]
    refine ⟨?_, ?_⟩
    · intro n hn
      rw [h1 n (fun hm => hn (by simp [hm])), other n (fun e => hn (by simp [e]))]
    · intro o ho d' hd' ht hk
      by_cases hm : o ∈ ods
      · refine h2 o hm d' ?_ ht hk
        rw [other _ (fun e => hclash o ho (by rw [e]; simp))]
        exact hd'
      · have ho : o = od := by
          rcases List.mem_cons.mp ho with e | e
          · exact e
          · exact absurd e hm
        subst ho
        rw [hd'] at hd
        cases Except.ok.inj hd
        have := copyValue_same ht hk hv
        subst this
        refine ⟨_, ?_, begins_zeroIfNull v⟩
        rw [h1 o hm]
        unfold State.get
        dsimp only
        rw [Dict.get_set, if_pos rfl]

/-- An attempt at a non-adaptive item begins with every declared outcome at its default value, or zero if it is a single
number without default; all other variables are as they were. -/
theorem outcomes_begin_with_defaults_partial (outcomes : List Str) (st st' : State)
    (hclash : ∀ o ∈ outcomes, o ++ ".DEFAULT".toList ∉ outcomes) (h : endAttempt false outcomes [] st = .ok st') :
    (∀ n, n ∉ outcomes → st'.get n = st.get n) ∧
    ∀ o ∈ outcomes, ∀ d, st.get (o ++ ".DEFAULT".toList) = .ok d → WellTyped d → Keepable d →
      ∃ v, st'.get o = .ok v ∧ BeginsWith d v := by
  unfold endAttempt at h
  simp only [Bool.false_eq_true, if_false] at h
  obtain ⟨s, hs, h⟩ := bind_ok h
  unfold run at h
  rw [runRules] at h
  cases Except.ok.inj h
  exact setOutcomeDefaults_begin outcomes st s hclash hs

/-- An item whose score depends on `completionStatus`. -/
def statusRules : List Rule :=
  [.condition [.mk (some (.node .match [.leaf (.variable "completionStatus".toList),
      .leaf (.baseValue .identifier ['d'])]))
    [.setOutcomeValue ['S'] (some (.leaf (.baseValue .integer ['1'])))]] [],
   .setOutcomeValue "completionStatus".toList (some (.leaf (.baseValue .identifier ['d'])))]

/-- A session for it: outcome `S`, without default. -/
def statusSession : State :=
  ⟨[(['S'], .single (some .integer) none), ("S.DEFAULT".toList, .single (some .integer) none),
    ("completionStatus".toList, .single (some .identifier) none)],
   [(['S'], ⟨.outcome, .single, some .integer, none, none⟩)]⟩

example : ∃ st', endAttempt false [['S']] [] statusSession = .ok st' ∧
    st'.get ['S'] = .ok (.single (some .integer) (some (.int 0))) := by
  refine ⟨_, rfl, ?_⟩
  decide +kernel

/-- The built-in outcome `completionStatus` is not reset: two attempts with the same responses can give
different scores. -/
theorem completion_status_carries_over :
    (endAttempt false [['S']] statusRules statusSession >>= fun s => s.get ['S']) =
      .ok (.single (some .integer) (some (.int 0))) ∧
    (endAttempt false [['S']] statusRules statusSession >>= fun s =>
      endAttempt false [['S']] statusRules s >>= fun s => s.get ['S']) =
      .ok (.single (some .integer) (some (.int 1))) := by
  constructor <;> decide +kernel

/-- A session of an item with outcomes `X` and `X.DEFAULT`. -/
def clashSession : State :=
  ⟨[(['X'], .single (some .integer) none), ("X.DEFAULT".toList, .single (some .integer) none),
    ("X.DEFAULT.DEFAULT".toList, .single (some .integer) none)],
   [(['X'], ⟨.outcome, .single, some .integer, none, none⟩),
    ("X.DEFAULT".toList, ⟨.outcome, .single, some .integer, none, none⟩)]⟩

/-- The rules of that item set `X.DEFAULT`. -/
def clashRules : List Rule := [.setOutcomeValue "X.DEFAULT".toList (some (.leaf (.baseValue .integer ['5'])))]

/-- The default of a declared outcome is kept under a name that another outcome may have: what an
attempt leaves there is the value `X` starts the next attempt with. -/
theorem default_name_clash :
    (endAttempt false [['X'], "X.DEFAULT".toList] clashRules clashSession >>= fun s => s.get ['X']) =
      .ok (.single (some .integer) (some (.int 0))) ∧
    (endAttempt false [['X'], "X.DEFAULT".toList] clashRules clashSession >>= fun s =>
      endAttempt false [['X'], "X.DEFAULT".toList] clashRules s >>= fun s => s.get ['X']) =
      .ok (.single (some .integer) (some (.int 5))) := by
  constructor <;> decide +kernel

/-- The hypotheses of `attempts_independent_partial` are met by two sessions with different scores. -/
example : AgreeExcept [['S']] statusSession
    { statusSession with vars := Dict.set statusSession.vars ['S'] (.single (some .integer) (some (.int 7))) } ∧
    (∀ o ∈ [['S']], o ++ ".DEFAULT".toList ∉ [['S']]) := by
  refine ⟨⟨rfl, ?_⟩, by decide⟩
  intro n hn
  show _ = Dict.get (Dict.set _ _ _) _
  rw [Dict.get_set, if_neg (by simpa using hn)]

/-- The hypotheses of `rules_change_outcomes_only` are met. -/
example : GoodState statusSession ∧ (run statusSession statusRules >>= fun s => s.get "completionStatus".toList) =
    .ok (.single (some .identifier) (some (.str ['d']))) := by
  refine ⟨?_, by decide +kernel⟩
  intro p hp
  simp only [statusSession, List.mem_cons, List.not_mem_nil, or_false] at hp
  rcases hp with rfl | rfl | rfl <;> exact .null _

end Verif.Props
