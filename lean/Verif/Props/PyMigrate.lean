import Verif.Props.V1Item
import Verif.Spec.PyMigrate

/-!
# The library's migration of version 1 items: response processing
-/

namespace Verif.Props

open Verif Verif.Qti Verif.Spec Verif.V1 Verif.Spec.PyMig

set_option linter.unusedVariables false

/-! ## Names and operands -/

theorem fixNameChar_id {c : Char} (h : Names.isNameChar c = true) (hc : c ≠ ':') : Names.fixNameChar c = c := by
  unfold Names.fixNameChar
  rw [if_neg hc, if_pos h]

/-- A legal name is its own identifier, whatever the prefix. -/
theorem legal_name_unchanged {s : Str} (h : Names.isValidNCName s = true) (p : Str) :
    Names.validateIdentifier p s = s := by
  cases s with
  | nil => cases h
  | cons c t =>
    rw [Names.isValidNCName, Bool.and_eq_true, Bool.and_eq_true, List.all_eq_true] at h
    obtain ⟨⟨h1, h2⟩, h3⟩ := h
    have hc : c ≠ ':' := by simpa using h2
    have e : (c :: t).map Names.fixNameChar = c :: t := by
      have hh : Names.fixNameChar c = c := by
        refine fixNameChar_id ?_ hc
        exact name_start_is_name c h1
      rw [List.map_cons, hh]
      congr 1
      have : ∀ l : List Char, (∀ d ∈ l, Names.isNameChar d = true ∧ d ≠ ':') → l.map Names.fixNameChar = l := by
        intro l hl
        induction l with
        | nil => rfl
        | cons d l ih =>
          rw [List.map_cons, fixNameChar_id (hl d (List.mem_cons_self ..)).1 (hl d (List.mem_cons_self ..)).2,
            ih fun e he => hl e (List.mem_cons_of_mem _ he)]
      exact this t fun d hd => by simpa using h3 d hd
    rw [Names.validateIdentifier, e]
    simp [h1, hc]

theorem plain_ident {s : Str} (h : PlainName s) : PyMig.ident s = s := legal_name_unchanged (plain_valid h) _

/-- The operand written is the one of the text without the white space around it. -/
theorem py_value {bt : BaseType} {text : Str} {y : Atom} (h : Denotes bt (Names.strip text) y) :
    PyMig.valueExpr bt text = singleValue bt (Names.strip text) := by
  unfold PyMig.valueExpr singleValue
  cases h' : bt <;> (subst h'; dsimp only)
  all_goals try rfl
  · cases h with
    | identifier hp => rw [plain_ident hp, plain_kept hp]
  · cases h

/-! ## Tests -/

/-- **Tests.** The converted test is NULL if the candidate gave no value to look at, and otherwise tells whether one
of the values passes. -/
theorem py_test_right {ds : PyMig.Decls} {st : State} {R : Answers} (hh : HoldsAnswers (responses ds) st R) {t : Test}
    {r : Str} {a : Answer} {i : Option Int} {text : Str} {y : Atom} (hr : R r = some a)
    (hy : Denotes a.bt (Names.strip text) y) (ht : Convertible t a i) :
    ∃ e v, PyMig.testExpr ds t r i text = .ok e ∧ TruthIs st e v ∧
      RightAbout (fun x => Passes t a.bt x y) (selected a i) v := by
  obtain ⟨id, v, henv, hget, hv⟩ := hh.2 r a hr
  have hd : ∃ d, Dict.get ds (PyMig.ident r) = some d ∧ id = PyMig.ident r ∧ d.card = a.card ∧ d.bt = a.bt := by
    unfold responses at henv
    cases hg : Dict.get ds (PyMig.ident r) with
    | none => rw [hg] at henv; cases henv
    | some d =>
      rw [hg] at henv
      simp only [Option.map_some, Option.some.injEq, Prod.mk.injEq] at henv
      exact ⟨d, rfl, henv.1.symm, henv.2.1, henv.2.2⟩
  obtain ⟨d, hg, rfl, hcard, hbt⟩ := hd
  have hvar : a.card = .single → PyMig.variableExpr (PyMig.ident r) .single i = .leaf (.variable (PyMig.ident r)) := by
    intro hc
    unfold PyMig.variableExpr
    cases i with
    | none => rfl
    | some n => by_cases hn : n = 0 <;> simp [hn]
  have hvar' : a.card = .single → variableExpr (responses ds) r i = .ok (.leaf (.variable (PyMig.ident r)), .single, a.bt) := by
    intro hc
    unfold variableExpr
    rw [henv, hc]
    cases i with
    | none => rfl
    | some n => by_cases hn : n = 0 <;> simp [hn]
  have hval := py_value hy
  have one : a.card = .single → PyMig.testExpr ds t r i text = testExpr (responses ds) t r i (Names.strip text) →
      Translatable t a i → _ := fun _ he ht => he ▸ test_right hh hr hy ht
  have hty := denotes_types hy
  have hdur : a.bt ≠ .duration := by rcases hty with h | ⟨h, _⟩ | ⟨h, _⟩ | ⟨h, _⟩ | h <;> simp [h]
  cases t with
  | varequal flag =>
    rcases ht with hc | ⟨hp, hs⟩
    · refine one hc ?_ (Or.inl (Or.inl hc))
      simp only [PyMig.testExpr, testExpr, hg, hvar hc, hvar' hc, hcard, hc, hbt, hval, bind, Except.bind, if_true]
      split
      · rfl
      · split
        · rfl
        · split
          · rfl
          · split
            · rfl
            · rename_i h1 h2 h3 h4
              rcases hty with h | ⟨h, _⟩ | ⟨h, _⟩ | ⟨h, _⟩ | h
              all_goals simp [h] at h1 h2 h3 h4
    · have hvc : PyMig.variableExpr (PyMig.ident r) a.card i = .leaf (.variable (PyMig.ident r)) := by
        unfold PyMig.variableExpr
        rcases hp with h | ⟨h, rfl | rfl⟩
        · rw [h]
          cases i with
          | none => rfl
          | some n => by_cases hn : n = 0 <;> simp [hn]
        · rfl
        · simp
      have hsel : selected a i = a.values := by
        rcases hp with h | ⟨h, rfl | rfl⟩
        · cases i with
          | none => rfl
          | some n => simp [selected, h]
        · rfl
        · simp [selected]
      have hcont : IsContainer v a.card a.bt a.values := by
        cases hv with
        | none => rcases hp with h | ⟨h, _⟩ <;> cases h
        | single => rcases hp with h | ⟨h, _⟩ <;> cases h
        | ordered bt as => exact .ordered bt as
        | multiple bt as => exact .multiple bt as
      have hns : ¬ a.card = .single := by
        intro h
        rcases hp with h' | ⟨h', _⟩ <;> rw [h] at h' <;> cases h'
      obtain ⟨u, hu1, hu2⟩ := member_right (literal_eval hy st) (variable_eval hget) hcont hdur
      refine ⟨_, u, ?_, hu1, ?_⟩
      · simp only [PyMig.testExpr, hg, hcard, if_neg hns, hvc, hbt, hval]
      · rw [hsel]
        have : (fun x => Passes (.varequal flag) a.bt x y) = fun x => x = y := by
          funext x
          cases flag with
          | true => rfl
          | false =>
            have : a.bt ≠ .string := fun h => by cases hs h
            simp [Passes, this]
        rw [this]
        exact hu2
  | varlt =>
    refine one ht.1 ?_ ⟨Or.inl ht.1, ht.2⟩
    simp only [PyMig.testExpr, testExpr, hg, PyMig.orderExpr, orderExpr, hvar ht.1, hvar' ht.1, hcard, ht.1, hbt, hval,
      ht.2, bind, Except.bind, if_true]
  | varlte =>
    refine one ht.1 ?_ ⟨Or.inl ht.1, ht.2⟩
    simp only [PyMig.testExpr, testExpr, hg, PyMig.orderExpr, orderExpr, hvar ht.1, hvar' ht.1, hcard, ht.1, hbt, hval,
      ht.2, bind, Except.bind, if_true]
  | vargt =>
    refine one ht.1 ?_ ⟨Or.inl ht.1, ht.2⟩
    simp only [PyMig.testExpr, testExpr, hg, PyMig.orderExpr, orderExpr, hvar ht.1, hvar' ht.1, hcard, ht.1, hbt, hval,
      ht.2, bind, Except.bind, if_true]
  | vargte =>
    refine one ht.1 ?_ ⟨Or.inl ht.1, ht.2⟩
    simp only [PyMig.testExpr, testExpr, hg, PyMig.orderExpr, orderExpr, hvar ht.1, hvar' ht.1, hcard, ht.1, hbt, hval,
      ht.2, bind, Except.bind, if_true]
  | varsubset => exact ht.elim
  | varsubstring => exact ht.elim
  | varinside => exact ht.elim

/-! ## Conditions -/

theorem trimmedAll_length : ∀ cs : List Cond, (trimmedAll cs).length = cs.length
  | [] => rfl
  | c :: cs => by rw [trimmedAll, List.length_cons, List.length_cons, trimmedAll_length cs]

theorem trimmedAll_nil {cs : List Cond} (h : trimmedAll cs ≠ []) : cs ≠ [] := by
  rintro rfl
  exact h rfl

mutual
/-- Every condition that is kept. -/
theorem py_cond_agrees {ds : PyMig.Decls} {st : State} {R : Answers} (hh : HoldsAnswers (responses ds) st R) :
    ∀ c, Kept R (trimmed c) → ∃ e t, PyMig.condExpr ds c = .ok e ∧ TruthIs st e t ∧ Agrees R (trimmed c) t
  | .and cs, ⟨hne, hs⟩ => by
    obtain ⟨es, ts, h1, h2, h3, _⟩ := py_conds_agree hh cs hs
    obtain ⟨a1, a2, a3⟩ := agrees_and h3
    refine ⟨_, _, ?_, truthIs_bool (and_eval h2), ⟨a1, a2, a3⟩⟩
    rw [PyMig.condExpr, if_neg (trimmedAll_nil hne), h1]
    rfl
  | .or cs, ⟨hne, hs⟩ => by
    obtain ⟨es, ts, h1, h2, h3, _⟩ := py_conds_agree hh cs hs
    obtain ⟨a1, a2, a3⟩ := agrees_or h3
    refine ⟨_, _, ?_, truthIs_bool (or_eval h2), ⟨a1, a2, a3⟩⟩
    rw [PyMig.condExpr, if_neg (trimmedAll_nil hne), h1]
    rfl
  | .not [], ⟨hl, _⟩ => by cases hl
  | .not (_ :: _ :: _), ⟨hl, _⟩ => by
    rw [trimmedAll, trimmedAll] at hl
    simp at hl
  | .not [c], ⟨_, hs⟩ => by
    obtain ⟨e, t, h1, hT, a1, a2, a3⟩ := py_cond_agrees hh c hs.1
    refine ⟨.node .not [e], t.map (!·), ?_, truthIs_bool (not_three_valued st e t (.cons hT .nil)), ?_⟩
    · rw [PyMig.condExpr, h1]
      rfl
    · refine ⟨?_, ?_, ?_⟩
      · intro b hb
        cases t with
        | none => cases hb
        | some c =>
          have := a1 c rfl
          cases hb
          simp only [trimmed, trimmedAll, Sat, SatAll, this]
          cases c <;> simp
      · intro hk
        have := a2 hk.1
        cases t with
        | none => exact absurd rfl this
        | some c => simp
      · intro hk hsat
        have := a2 hk.1
        cases t with
        | none => exact absurd rfl this
        | some c =>
          have hc := a1 c rfl
          cases c with
          | false => rfl
          | true => exact absurd ⟨hc.mpr rfl, trivial⟩ hsat
  | .other, _ => ⟨_, some true, by rw [PyMig.condExpr], ⟨_, rfl, .bool true⟩,
      ⟨fun b hb => by cases hb; simp [trimmed, Sat], by simp, fun _ _ => rfl⟩⟩
  | .unanswered r, h => h.elim
  | .test t r i text, ⟨a, y, hr, hy, ht⟩ => by
    obtain ⟨e, v, h1, h2, h3⟩ := py_test_right hh hr hy ht
    have hsat : Sat R (trimmed (.test t r i text)) ↔ ∃ x ∈ selected a i, Passes t a.bt x y := by
      constructor
      · rintro ⟨a', x, y', e1, e2, e3, e4⟩
        rw [hr] at e1
        cases e1
        have := denotes_unique hy e2
        subst this
        exact ⟨x, e3, e4⟩
      · rintro ⟨x, e3, e4⟩
        exact ⟨a, x, y, hr, hy, e3, e4⟩
    refine ⟨e, v, by rw [PyMig.condExpr]; exact h1, h2, ?_, ?_, ?_⟩
    · intro b hb
      rw [hsat]
      by_cases hs : selected a i = []
      · rw [h3.1 hs] at hb
        cases hb
      · obtain ⟨c, hc, hi⟩ := h3.2 hs
        rw [hc] at hb
        cases hb
        exact hi.symm
    · rintro ⟨a', e1, e2⟩
      rw [hr] at e1
      cases e1
      obtain ⟨c, hc, _⟩ := h3.2 e2
      simp [hc]
    · intro _ hs
      obtain ⟨x, e3, e4⟩ := hsat.mp hs
      have hne : selected a i ≠ [] := by
        intro h
        rw [h] at e3
        cases e3
      obtain ⟨c, hc, hi⟩ := h3.2 hne
      rw [hc, hi.mpr ⟨x, e3, e4⟩]
/-- Several of them. -/
theorem py_conds_agree {ds : PyMig.Decls} {st : State} {R : Answers} (hh : HoldsAnswers (responses ds) st R) :
    ∀ cs, KeptAll R (trimmedAll cs) → ∃ es ts, PyMig.condExprs ds cs = .ok es ∧ Truths st es ts ∧
      AgreeAll R (trimmedAll cs) ts ∧ es.length = cs.length
  | [], _ => ⟨[], [], by rw [PyMig.condExprs], .nil, agreeAll_nil R, rfl⟩
  | c :: cs, ⟨hc, hs⟩ => by
    obtain ⟨e, t, h1, h2, h3⟩ := py_cond_agrees hh c hc
    obtain ⟨es, ts, i1, i2, i3, i4⟩ := py_conds_agree hh cs hs
    refine ⟨e :: es, t :: ts, ?_, .cons h2 i2, agreeAll_cons h3 i3, by simp [i4]⟩
    rw [PyMig.condExprs, h1, i1]
    rfl
end

/-- **Conditions keep their meaning (guarded).** The condition is converted, evaluates, and
* whenever it evaluates to a truth value that is whether the original condition is satisfied, its texts read without
  the white space around them;
* it evaluates to a truth value when everything it tests was answered;
* it is true exactly when the original condition is satisfied, provided that what is tested inside `not` was
  answered. -/
theorem py_condition_meaning_partial {ds : PyMig.Decls} {st : State} {R : Answers}
    (hh : HoldsAnswers (responses ds) st R) (cs : List Cond) (hne : cs ≠ []) (hs : KeptAll R (trimmedAll cs)) :
    ∃ e v t, PyMig.conditionVar ds cs = .ok e ∧ eval st e = .ok v ∧ IsTruth v t ∧
      (∀ b, t = some b → (SatAll R (trimmedAll cs) ↔ b = true)) ∧
      (AnsweredAll R (trimmedAll cs) → t ≠ none) ∧
      (NegatesAnsweredAll R (trimmedAll cs) → (t = some true ↔ SatAll R (trimmedAll cs))) := by
  obtain ⟨es, ts, h1, h2, h3, h4⟩ := py_conds_agree hh cs hs
  have hne' : trimmedAll cs ≠ [] := by
    intro h
    have := trimmedAll_length cs
    rw [h] at this
    cases cs with
    | nil => exact hne rfl
    | cons => simp at this
  obtain ⟨e, t, ⟨he, _⟩, ⟨v, hv, hvt⟩, a1, a2, a3⟩ :=
    implicit_and hne' (by rw [h4, trimmedAll_length]) h2 h3
  refine ⟨e, v, t, ?_, hv, hvt, a1, a2, fun hk => ⟨fun h => (a1 true h).mpr rfl, a3 hk⟩⟩
  rw [PyMig.conditionVar, h1, ← he]
  rfl

/-! ## The order of conditions -/

/-- The step of the library is the step of the other converter, once condition and effects are converted. -/
theorem py_step (ds : PyMig.Decls) (rules : List (RP.Rule Expr Rule)) (mode : Bool) (p : RP.Point) (c : RespCondition)
    {e : Expr} {q : PyMig.Decls × List Rule} (he : PyMig.conditionVar ds c.conds = .ok e)
    (hq : PyMig.effectRules ds (PyMig.inOrder c.effects) = .ok q) :
    PyMig.respCondition ⟨ds, rules, mode, p⟩ c =
      RP.addRespCondition ⟨rules, mode, p⟩ e q.2 c.continueFlag >>= fun st =>
        .ok ⟨q.1, st.rules, st.continueMode, st.point⟩ := by
  unfold PyMig.respCondition RP.addRespCondition
  simp only [he, hq]
  cases hc : c.continueFlag <;> cases mode <;> cases p <;> rfl

theorem py_step_parts {st st' : PyMig.St} {c : RespCondition} (h : PyMig.respCondition st c = .ok st') :
    ∃ e q, PyMig.conditionVar st.decls c.conds = .ok e ∧
      PyMig.effectRules st.decls (PyMig.inOrder c.effects) = .ok q ∧ st'.decls = q.1 := by
  unfold PyMig.respCondition at h
  obtain ⟨p, _, h⟩ := bind_ok h
  obtain ⟨e, he, h⟩ := bind_ok h
  obtain ⟨q, hq, h⟩ := bind_ok h
  obtain ⟨r, _, h⟩ := bind_ok h
  cases h
  exact ⟨e, q, he, hq, rfl⟩

/-- The converted conditions and effects, in order, with the declarations that the effects add. -/
inductive Converted : PyMig.Decls → List RespCondition → List (Expr × List Rule × Bool) → PyMig.Decls → Prop where
  | nil (ds) : Converted ds [] [] ds
  | cons {ds ds' ds'' c rcs e rs cs} : PyMig.conditionVar ds c.conds = .ok e →
      PyMig.effectRules ds (PyMig.inOrder c.effects) = .ok (ds', rs) → Converted ds' rcs cs ds'' →
      Converted ds (c :: rcs) ((e, rs, c.continueFlag) :: cs) ds''

theorem py_conditions_built {ds ds' : PyMig.Decls} {rcs : List RespCondition} {cs : List (Expr × List Rule × Bool)}
    (h : Converted ds rcs cs ds') : ∀ (st st' : RP.St Expr Rule), RP.addAllConds st cs = .ok st' →
    PyMig.respConditions ⟨ds, st.rules, st.continueMode, st.point⟩ rcs =
      .ok ⟨ds', st'.rules, st'.continueMode, st'.point⟩ := by
  induction h with
  | nil ds => intro st st' h; cases h; rfl
  | cons he hq _ ih =>
    intro st st' h
    rw [RP.addAllConds] at h
    obtain ⟨s1, h1, h2⟩ := bind_ok h
    rw [PyMig.respConditions, py_step _ _ _ _ _ he hq, h1]
    exact ih s1 st' h2

theorem py_converted : ∀ (rcs : List RespCondition) (st st' : PyMig.St), PyMig.respConditions st rcs = .ok st' →
    ∃ cs, Converted st.decls rcs cs st'.decls
  | [], st, st', h => by cases h; exact ⟨[], .nil _⟩
  | c :: rcs, st, st', h => by
    rw [PyMig.respConditions] at h
    obtain ⟨s1, h1, h2⟩ := bind_ok h
    obtain ⟨e, q, he, hq, hd⟩ := py_step_parts h1
    obtain ⟨cs, hcs⟩ := py_converted rcs s1 st' h2
    rw [hd] at hcs
    exact ⟨_, .cons he hq hcs⟩

/-- **The order of conditions is kept.** If each condition and its effects can be converted, response processing is
built, and for every interpretation of expressions and rules and every state, running it is running the original
conditions in order and stopping after the first one that holds and is not marked to continue.  If response processing
is built, each condition and its effects were converted. -/
theorem py_conditions_in_order (ds : PyMig.Decls) (rcs : List RespCondition) :
    (∀ cs ds', Converted ds rcs cs ds' → ∃ st, PyMig.respConditions ⟨ds, [], true, .container 0⟩ rcs = .ok st ∧
      st.decls = ds' ∧ ∀ (σ : Type) (test : Expr → σ → Bool) (act : Rule → σ → σ) (s : σ),
        Spec.runRules test act st.rules s = runConditions test act cs s) ∧
    ∀ st, PyMig.respConditions ⟨ds, [], true, .container 0⟩ rcs = .ok st → ∃ cs, Converted ds rcs cs st.decls := by
  constructor
  · intro cs ds' h
    obtain ⟨b, hb, hm⟩ := response_conditions_meaning cs
    exact ⟨_, py_conditions_built h RP.St.init b hb, rfl, hm⟩
  · intro st h
    exact py_converted rcs _ st h

/-! ## Effects -/

theorem dict_get_has {V} (m : List (Str × V)) (k : Str) : Dict.has m k = true ↔ ∃ v, Dict.get m k = some v := by
  unfold Dict.has
  cases Dict.get m k <;> simp

/-- Declarations are only added. -/
def Extends (ds ds' : PyMig.Decls) : Prop := ∀ k d, Dict.get ds k = some d → Dict.get ds' k = some d

theorem extends_refl (ds : PyMig.Decls) : Extends ds ds := fun _ _ h => h

theorem extends_trans {a b c : PyMig.Decls} (h1 : Extends a b) (h2 : Extends b c) : Extends a c :=
  fun k d h => h2 k d (h1 k d h)

theorem feedback_extends (ds : PyMig.Decls) : Extends ds (PyMig.feedbackDecl ds) := by
  intro k d h
  unfold PyMig.feedbackDecl
  split
  · exact h
  · rename_i hn
    rw [Dict.get_set]
    split
    · rename_i e
      subst e
      exact absurd ((dict_get_has ds _).mpr ⟨d, h⟩) hn
    · exact h

theorem py_setVar {ds : PyMig.Decls} {n text : Str} {a : Action} {d : PyMig.Decl}
    (hg : Dict.get ds (PyMig.ident n) = some d) (hc : d.card = .single) (ha : a ≠ .unknown) :
    ∃ r, PyMig.setVar ds n a text = .ok r ∧
      setVar (outcomes ds n).1 (outcomes ds n).2 a (Names.strip text) = .ok r := by
  unfold PyMig.setVar setVar outcomes
  simp only [hg, hc, ne_eq, not_true, if_false]
  cases a <;> first | exact ⟨_, rfl, rfl⟩ | exact absurd rfl ha

theorem outcomes_extends {ds ds' : PyMig.Decls} (h : Extends ds ds') {n : Str} {d : PyMig.Decl}
    (hg : Dict.get ds (PyMig.ident n) = some d) : outcomes ds' n = outcomes ds n := by
  unfold outcomes
  rw [hg, h _ _ hg]

/-- The outcomes named are declared as single. -/
def Declared (ds : PyMig.Decls) (names : List Str) : Prop :=
  ∀ n ∈ names, ∃ d, Dict.get ds (PyMig.ident n) = some d ∧ d.card = .single

theorem declared_extends {ds ds' : PyMig.Decls} {names : List Str} (h : Extends ds ds') (hd : Declared ds names) :
    Declared ds' names := fun n hn => by
  obtain ⟨d, h1, h2⟩ := hd n hn
  exact ⟨d, h _ _ h1, h2⟩

/-- The library's rules for effects are those of the other converter for the trimmed texts. -/
theorem py_effects {ds0 : PyMig.Decls} {names : List Str} {fb : Prop} (hd0 : Declared ds0 names) :
    ∀ (fs : List Effect) (ds : PyMig.Decls), Extends ds0 ds → EffectsKnown names fb fs →
    ∃ ds' rs, PyMig.effectRules ds fs = .ok (ds', rs) ∧ Extends ds ds' ∧
      effectRules (outcomes ds0) (fs.map trimmedEffect) = .ok rs
  | [], ds, _, _ => ⟨ds, [], rfl, extends_refl ds, rfl⟩
  | f :: fs, ds, he, hk => by
    have hk' : EffectsKnown names fb fs :=
      ⟨fun n a t hm => hk.1 n a t (List.mem_cons_of_mem _ hm), fun l hm => hk.2 l (List.mem_cons_of_mem _ hm)⟩
    have step : ∃ ds1 r, PyMig.effectRule ds f = .ok (ds1, r) ∧ Extends ds ds1 ∧
        effectRule (outcomes ds0) (trimmedEffect f) = .ok r := by
      cases f with
      | setvar n a t =>
        obtain ⟨hn, ha⟩ := hk.1 n a t (List.mem_cons_self ..)
        obtain ⟨d, hg, hc⟩ := hd0 n hn
        obtain ⟨r, h1, h2⟩ := py_setVar (text := t) (he _ _ hg) hc ha
        rw [outcomes_extends he hg] at h2
        exact ⟨ds, r, by rw [PyMig.effectRule, h1]; rfl, extends_refl ds, h2⟩
      | displayfeedback l => exact ⟨_, _, rfl, feedback_extends ds, rfl⟩
    obtain ⟨ds1, r, h1, h2, h3⟩ := step
    obtain ⟨ds', rs, i1, i2, i3⟩ := py_effects hd0 fs ds1 (extends_trans he h2) hk'
    refine ⟨ds', r :: rs, ?_, extends_trans h2 i2, ?_⟩
    · simp only [PyMig.effectRules, h1, i1, bind, Except.bind]
    · simp only [List.map_cons, effectRules, h3, i3, bind, Except.bind]

theorem effects_trimmed_known {names : List Str} {fb : Prop} {fs : List Effect}
    (h : EffectsKnown names fb (fs.map trimmedEffect)) : EffectsKnown names fb fs := by
  constructor
  · intro n a t hm
    exact h.1 n a _ (List.mem_map.mpr ⟨_, hm, rfl⟩)
  · intro l hm
    exact h.2 l (List.mem_map.mpr ⟨_, hm, rfl⟩)

theorem inOrder_id {fs : List Effect} (h : SetsFirst fs) : PyMig.inOrder fs = fs := by
  obtain ⟨sets, shows, rfl, h1, h2⟩ := h
  have e1 : ∀ f ∈ sets, PyMig.isSetVar f = true := by
    intro f hf
    obtain ⟨_, _, _, rfl⟩ := h1 f hf
    rfl
  have e2 : ∀ f ∈ shows, PyMig.isSetVar f = false := by
    intro f hf
    obtain ⟨_, rfl⟩ := h2 f hf
    rfl
  have f1 : sets.filter PyMig.isSetVar = sets := List.filter_eq_self.mpr e1
  have f2 : shows.filter PyMig.isSetVar = [] := List.filter_eq_nil_iff.mpr fun f hf => by simp [e2 f hf]
  have f3 : sets.filter (fun f => !PyMig.isSetVar f) = [] := List.filter_eq_nil_iff.mpr fun f hf => by simp [e1 f hf]
  have f4 : shows.filter (fun f => !PyMig.isSetVar f) = shows := List.filter_eq_self.mpr fun f hf => by simp [e2 f hf]
  rw [PyMig.inOrder, List.filter_append, List.filter_append, f1, f2, f3, f4]
  simp

/-! ## Items -/

theorem responses_extends {ds ds' : PyMig.Decls} (h : Extends ds ds') {R : Answers} {st : State}
    (hh : HoldsAnswers (responses ds) st R) : HoldsAnswers (responses ds') st R := by
  refine ⟨hh.1, fun r a hr => ?_⟩
  obtain ⟨id, v, h1, h2, h3⟩ := hh.2 r a hr
  refine ⟨id, v, ?_, h2, h3⟩
  unfold responses at h1 ⊢
  cases hg : Dict.get ds (PyMig.ident r) with
  | none => rw [hg] at h1; cases h1
  | some d => rw [h _ _ hg]; rw [hg] at h1; exact h1

/-- Every respcondition is one that the library converts. -/
def PyMigratable (R : Answers) (names : List Str) (feedback : Prop) (c : RespCondition) : Prop :=
  c.conds ≠ [] ∧ KeptAll R (trimmedAll c.conds) ∧ NegatesAnsweredAll R (trimmedAll c.conds) ∧
    EffectsKnown names feedback c.effects ∧ SetsFirst c.effects

/-- What is converted: an expression of conditions that are kept, under declarations that extend the first. -/
def KeptExpr (ds0 : PyMig.Decls) (R : Answers) (e : Expr) : Prop :=
  ∃ ds cs, Extends ds0 ds ∧ cs ≠ [] ∧ KeptAll R (trimmedAll cs) ∧ PyMig.conditionVar ds cs = .ok e

theorem py_convertible {ds0 : PyMig.Decls} {R : Answers} {names : List Str} {fb : Prop} {st : State}
    (ha : HoldsAnswers (responses ds0) st R) (hd : Declared ds0 names) : ∀ (rcs : List RespCondition) (ds : PyMig.Decls),
    Extends ds0 ds → (∀ c ∈ rcs, PyMigratable R names fb c) → ∃ cs ds', Converted ds rcs cs ds' ∧ Extends ds ds' ∧
      (∀ c ∈ cs, KeptExpr ds0 R c.1 ∧ ∀ r ∈ c.2.1, IsSet r)
  | [], ds, _, _ => ⟨[], ds, .nil ds, extends_refl ds, by simp⟩
  | c :: rcs, ds, he, h => by
    obtain ⟨h1, h2, h3, h4, h5⟩ := h c (List.mem_cons_self ..)
    obtain ⟨e, v, t, hc, _⟩ := py_condition_meaning_partial (responses_extends he ha) c.conds h1 h2
    obtain ⟨ds1, rs, hr, hx, hr'⟩ := py_effects hd c.effects ds he h4
    obtain ⟨cs, ds', i1, i2, i3⟩ := py_convertible ha hd rcs ds1 (extends_trans he hx)
      fun q hq => h q (List.mem_cons_of_mem _ hq)
    refine ⟨_, ds', .cons hc (by rw [inOrder_id h5]; exact hr) i1, extends_trans hx i2, ?_⟩
    intro d hd'
    rcases List.mem_cons.mp hd' with rfl | hd'
    · exact ⟨⟨ds, c.conds, he, h1, h2, hc⟩, effectRules_sets _ _ _ hr'⟩
    · exact i3 d hd'

theorem effectsKnown_trim {names : List Str} {fb : Prop} {fs : List Effect} (h : EffectsKnown names fb fs) :
    EffectsKnown names fb (fs.map trimmedEffect) := by
  constructor
  · intro n a t hm
    obtain ⟨f, hf, he⟩ := List.mem_map.mp hm
    cases f with
    | setvar m b u => cases he; exact h.1 _ _ _ hf
    | displayfeedback l => cases he
  · intro l hm
    obtain ⟨f, hf, he⟩ := List.mem_map.mp hm
    cases f with
    | setvar m b u => cases he
    | displayfeedback k => cases he; exact h.2 _ hf

theorem py_conditions_sim {ds0 : PyMig.Decls} {R : Answers} {names : List Str} {fb : Prop}
    (hd : Declared ds0 names) (hap : NamesApart (outcomes ds0) names fb) :
    ∀ (rcs : List RespCondition) (ds ds' : PyMig.Decls) (cs : List (Expr × List Rule × Bool)) (st : State)
      (s s' : Results), Extends ds0 ds → Converted ds rcs cs ds' → (∀ c ∈ rcs, PyMigratable R names fb c) →
    Scored R (fun n => (outcomes ds0 n).2) (rcs.map trimmedRule) s s' → AnswersKept (responses ds0) R st →
    HoldsResults (outcomes ds0) names fb st s →
    ∃ st', runConditions testOf actOf cs (some st) = some st' ∧ HoldsResults (outcomes ds0) names fb st' s'
  | [], ds, ds', cs, st, s, s', _, hcv, _, hsc, _, hs => by
    cases hcv
    cases hsc
    exact ⟨st, rfl, hs⟩
  | c :: rcs, ds, ds', cs, st, s, s', hx, hcv, hm, hsc, ha, hs => by
    cases hcv with
    | @cons _ ds1 _ _ _ e rs cs' he hq hrest =>
    obtain ⟨m1, m2, m3, m4, m5⟩ := hm c (List.mem_cons_self ..)
    have test : testOf e (some st) = true ↔ SatAll R (trimmedAll c.conds) := by
      obtain ⟨e', v, t, h1, h2, h3, _, _, h4⟩ :=
        py_condition_meaning_partial (responses_extends hx ha.1) c.conds m1 m2
      have := Except.ok.inj (h1.symm.trans he)
      subst this
      rw [← h4 m3]
      simp [testOf, branch_truth h2 h3]
    obtain ⟨ds2, rs2, hq2, hx2, hv1⟩ := py_effects hd c.effects ds hx m4
    rw [inOrder_id m5] at hq
    have hqq := Except.ok.inj (hq2.symm.trans hq)
    cases hqq
    have hm' : ∀ q ∈ rcs, PyMigratable R names fb q := fun q hq => hm q (List.mem_cons_of_mem _ hq)
    rw [List.map_cons] at hsc
    cases hsc with
    | skip hn h =>
      obtain ⟨st', h1, h2⟩ := py_conditions_sim hd hap rcs ds1 ds' cs' st s s' (extends_trans hx hx2) hrest hm' h ha hs
      refine ⟨st', ?_, h2⟩
      rw [runConditions, if_neg (fun h => hn (test.mp h))]
      exact h1
    | stop hy hf hp =>
      obtain ⟨st1, h1, _, h2⟩ := effects_sim hap hp st rs (effectsKnown_trim m4) hv1 ha hs
      refine ⟨st1, ?_, h2⟩
      have hf' : c.continueFlag = false := hf
      rw [runConditions, if_pos (test.mpr hy), hf']
      exact h1
    | go hy hf hp h =>
      obtain ⟨st1, h1, h1', h2⟩ := effects_sim hap hp st rs (effectsKnown_trim m4) hv1 ha hs
      obtain ⟨st', h3, h4⟩ := py_conditions_sim hd hap rcs ds1 ds' cs' st1 _ s' (extends_trans hx hx2) hrest hm' h h1' h2
      refine ⟨st', ?_, h4⟩
      have hf' : c.continueFlag = true := hf
      rw [runConditions, if_pos (test.mpr hy), hf', if_pos rfl, h1]
      exact h3

/-- **Migrated items score as the originals (guarded).** For every item of declared outcomes and of conditions that
are kept, every set of answers held by the session and every state of its outcomes: if version 1 processing, its texts
read without the white space around them, ends with results `s'`, then the response processing written for the item
runs, and leaves in the outcomes those numbers and in `FEEDBACK` what is shown.  The declarations are only added to.
Limits of outcomes are not enforced. -/
theorem py_item_scores_partial (ds00 ds0 ds : PyMig.Decls) (vars : List PyMig.DecVar) (ints : List (Str × Str))
    (names : List Str) (rcs : List RespCondition) (R : Answers) (st : State) (s s' : Results)
    (hv : PyMig.decVars ds00 vars = .ok ds0) (hi : PyMig.interpretVars ds0 ints = .ok ds)
    (hans : AnswersKept (responses ds) R st) (hd : Declared ds names)
    (hap : NamesApart (outcomes ds) names (ShowsFeedback rcs))
    (hm : ∀ c ∈ rcs, PyMigratable R names (ShowsFeedback rcs) c)
    (hs : HoldsResults (outcomes ds) names (ShowsFeedback rcs) st s)
    (hsc : Scored R (fun n => (outcomes ds n).2) (rcs.map trimmedRule) s s') :
    ∃ ds' rules st', PyMig.resProcessing ds00 [] vars ints rcs = .ok (ds', rules) ∧ Extends ds ds' ∧
      run st rules = .ok st' ∧ HoldsResults (outcomes ds) names (ShowsFeedback rcs) st' s' := by
  obtain ⟨cs, ds', hcv, hx, hall⟩ := py_convertible hans.1 hd rcs ds (extends_refl ds) hm
  obtain ⟨b, hb, hmean⟩ := response_conditions_meaning cs
  have hbuilt := py_conditions_built hcv RP.St.init b hb
  obtain ⟨st1, h1, h2⟩ := py_conditions_sim hd hap rcs ds ds' cs st s s' (extends_refl ds) hcv hm hsc hans hs
  have hr : RulesAll (KeptExpr ds R) IsSet b.rules := addAllConds_all _ _ cs RP.St.init b hb trivial hall
  rw [← hmean] at h1
  obtain ⟨h3, _⟩ := rules_sim (Inv := AnswersKept (responses ds) R) (P := KeptExpr ds R) (Q := IsSet)
    (by
      rintro e ⟨dd, cc, k1, k2, k3, k4⟩ st ha
      obtain ⟨e', v, t, h4, h5, h6, _⟩ := py_condition_meaning_partial (responses_extends k1 ha.1) cc k2 k3
      have := Except.ok.inj (h4.symm.trans k4)
      subst this
      exact ⟨_, branch_truth h5 h6⟩)
    (fun r hr st p hi hp => ⟨set_goes_on hr hp, answers_kept hi hp⟩) b.rules st st1 hr hans h1
  refine ⟨ds', readRules b.rules, st1, ?_, hx, ?_, h2⟩
  · unfold PyMig.resProcessing
    have hbuilt' : PyMig.respConditions ⟨ds, [], true, .container 0⟩ rcs = .ok ⟨ds', b.rules, b.continueMode, b.point⟩ :=
      hbuilt
    simp only [hv, hi, hbuilt', bind, Except.bind, List.map_nil, List.nil_append]
  · rw [run, h3]
    rfl

end Verif.Props
