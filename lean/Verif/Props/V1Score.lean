import Verif.Model.V1Resp
import Verif.Spec.V1
import Verif.Props.QtiMap
import Verif.Props.XsdText

/-!
# Migrated `setvar` actions and outcome limits
-/

namespace Verif.Props

open Verif Verif.Qti Verif.Spec Verif.V1

set_option linter.unusedVariables false

/-- `st'` is `st` with a new value for one variable. -/
def Assigned (st : State) (id : Str) (v : Value) (st' : State) : Prop :=
  st'.get id = .ok v ∧ (∀ n, n ≠ id → st'.get n = st.get n) ∧ st'.decls = st.decls

theorem assign_ok {st : State} {id : Str} {e : Expr} {old v : Value} (hold : st.get id = .ok old)
    (ho : st.isOutcome id = .ok true) (he : eval st e = .ok v) (ht : WellTyped v) (hk : Keepable v)
    (hcard : v.card = old.card) (hbt : v.bt = old.bt) (hc : v.card ≠ none) :
    ∃ st', runRule st (.setOutcomeValue id (some e)) = .ok (st', false) ∧ Assigned st id v st' := by
  obtain ⟨st', h1, h2, h3, h4⟩ := assigned_value_reads_back_partial st id old v hold ht hk hcard hbt hc
  refine ⟨st', ?_, h2, h3, h4⟩
  simp only [runRule, setOutcome, he, ho, bind, Except.bind, if_true, h1]

theorem variable_eval {st : State} {id : Str} {v : Value} (h : st.get id = .ok v) :
    eval st (.leaf (.variable id)) = .ok v := by
  rw [eval]
  simp only [evalLeaf, h, declared]

theorem float_literal {st : State} {s : Str} {q : Rat} (h : DoubleText s q) :
    eval st (.leaf (.baseValue .float s)) = .ok (floatV (some q)) := by
  rw [eval]
  simp only [evalLeaf, newSingle, fromText, (double_read s q).mpr h, bind, Except.bind]
  rfl

theorem integer_literal {st : State} {s : Str} {i : Int} (h : IntegerText s i) :
    eval st (.leaf (.baseValue .integer s)) = .ok (.single (some .integer) (some (.int i))) := by
  rw [eval]
  simp only [evalLeaf, newSingle, fromText, (integer_read s i).mpr h, bind, Except.bind]

/-! ## Actions -/

/-- **C16, decimal outcomes.** Every action leaves in the outcome the number it computes from its previous value
and the operand, and changes nothing else. -/
theorem setvar_float (st : State) (id : Str) (old x : Rat) (action : Action) (value : Str)
    (hold : st.get id = .ok (floatV (some old))) (ho : st.isOutcome id = .ok true) (hx : DoubleText value x)
    (ha : action ≠ .unknown) (hd : action = .divide → x ≠ 0) :
    ∃ rule st', setVar id .float action value = .ok rule ∧ runRule st rule = .ok (st', false) ∧
      Assigned st id (floatV (some (actionResult action old x))) st' := by
  have hv : FloatNum st (.leaf (.variable id)) old := variable_eval hold
  have hl : FloatNum st (.leaf (.baseValue .float value)) x := float_literal hx
  have nv : Num st (.leaf (.variable id)) old := ⟨_, hv, .float old⟩
  have nl : Num st (.leaf (.baseValue .float value)) x := ⟨_, hl, .float x⟩
  have done : ∀ e r, FloatNum st e r → ∃ st', runRule st (.setOutcomeValue id (some e)) = .ok (st', false) ∧
      Assigned st id (floatV (some r)) st' :=
    fun e r he => assign_ok hold ho he (floatV_typed _) (by trivial) rfl rfl (by simp [floatV, Value.card])
  have pw : Pointwise (Num st) [.leaf (.variable id), .leaf (.baseValue .float value)] [old, x] :=
    .cons nv (.cons nl .nil)
  cases action with
  | unknown => exact absurd rfl ha
  | set =>
    obtain ⟨st', h⟩ := done _ x hl
    exact ⟨_, st', rfl, h⟩
  | add =>
    obtain ⟨st', h⟩ := done _ _ (sum_of_numbers st _ _ pw _ (List.mem_cons_self ..) _ hv)
    refine ⟨_, st', rfl, h.1, ?_⟩
    have := h.2
    simpa [actionResult, Rat.add_zero] using this
  | subtract =>
    obtain ⟨st', h⟩ := done _ _ ((subtract_exact st _ _).2 _ _ nv nl (Or.inl hv))
    exact ⟨_, st', rfl, h⟩
  | multiply =>
    obtain ⟨st', h⟩ := done _ _ (product_of_numbers st _ _ pw _ (List.mem_cons_self ..) _ hv)
    refine ⟨_, st', rfl, h.1, ?_⟩
    have := h.2
    simpa [actionResult, Rat.mul_one] using this
  | divide =>
    obtain ⟨st', h⟩ := done _ _ ((divide_exact st _ _ _ _ nv nl).1 (hd rfl))
    exact ⟨_, st', rfl, h⟩

/-- **C16, integer outcomes.** Every action but division leaves in the outcome the number it computes, if it fits in
32 bits, and changes nothing else. -/
theorem setvar_integer_partial (st : State) (id : Str) (old i r : Int) (action : Action) (value : Str)
    (hold : st.get id = .ok (.single (some .integer) (some (.int old)))) (ho : st.isOutcome id = .ok true)
    (hx : IntegerText value i) (ha : action ≠ .unknown) (hd : action ≠ .divide)
    (hr : (r : Rat) = actionResult action old i) (hf : Fits r) :
    ∃ rule st', setVar id .integer action value = .ok rule ∧ runRule st rule = .ok (st', false) ∧
      Assigned st id (.single (some .integer) (some (.int r))) st' := by
  have hv : IntNum st (.leaf (.variable id)) old := variable_eval hold
  have hl : IntNum st (.leaf (.baseValue .integer value)) i := integer_literal hx
  have done : ∀ e, IntNum st e r → ∃ st', runRule st (.setOutcomeValue id (some e)) = .ok (st', false) ∧
      Assigned st id (.single (some .integer) (some (.int r))) st' :=
    fun e he => assign_ok hold ho he (.single (.integer r)) hf rfl rfl (by simp [Value.card])
  have pw : Pointwise (IntNum st) [.leaf (.variable id), .leaf (.baseValue .integer value)] [old, i] :=
    .cons hv (.cons hl .nil)
  cases action with
  | unknown => exact absurd rfl ha
  | divide => exact absurd rfl hd
  | set =>
    have : r = i := by simpa [actionResult] using hr
    subst this
    obtain ⟨st', h⟩ := done _ hl
    exact ⟨_, st', rfl, h⟩
  | add =>
    have hr' : (r : Rat) = ((old + i : Int) : Rat) := by rw [hr, actionResult, Rat.intCast_add]
    have : r = old + i := by exact_mod_cast hr'
    have h1 := (sum_of_integers st _ _ (by simp) pw).1 (by simpa [this] using hf)
    obtain ⟨st', h⟩ := done _ (by simpa [this] using h1)
    exact ⟨_, st', rfl, h⟩
  | subtract =>
    have hr' : (r : Rat) = ((old - i : Int) : Rat) := by rw [hr, actionResult, Rat.intCast_sub]
    have : r = old - i := by exact_mod_cast hr'
    have h1 := ((subtract_exact st _ _).1 _ _ hv hl).1 (by simpa [this] using hf)
    obtain ⟨st', h⟩ := done _ (by simpa [this] using h1)
    exact ⟨_, st', rfl, h⟩
  | multiply =>
    have hr' : (r : Rat) = ((old * i : Int) : Rat) := by rw [hr, actionResult, Rat.intCast_mul]
    have : r = old * i := by exact_mod_cast hr'
    have h1 := (product_of_integers st _ _ (by simp) pw).1 (by simpa [this] using hf)
    obtain ⟨st', h⟩ := done _ (by simpa [this] using h1)
    exact ⟨_, st', rfl, h⟩

/-- Division of an integer outcome never works in the migrated item, even when the quotient is an integer: the
rule assigns a float to an integer variable, which is refused. -/
theorem setvar_integer_divide_fails (st : State) (id : Str) (old i : Int) (value : Str)
    (hold : st.get id = .ok (.single (some .integer) (some (.int old)))) (ho : st.isOutcome id = .ok true)
    (hx : IntegerText value i) :
    ∃ rule, setVar id .integer .divide value = .ok rule ∧ runRule st rule = .error .valueError := by
  have hv : IntNum st (.leaf (.variable id)) old := variable_eval hold
  have hl : IntNum st (.leaf (.baseValue .integer value)) i := integer_literal hx
  obtain ⟨h1, h2⟩ := divide_exact st _ _ _ _ ⟨_, hv, .integer old⟩ ⟨_, hl, .integer i⟩
  refine ⟨_, rfl, ?_⟩
  have fails : ∀ q, st.set id (floatV q) = .error .valueError := by
    intro q
    unfold State.set
    rw [hold]
    simp only [bind, Except.bind]
    rw [if_neg (by simp [floatV, Value.card])]
    simp only [pure, Except.pure]
    rw [if_pos (by simp [floatV, Value.bt])]
    rfl
  by_cases hi : (i : Rat) = 0
  · simp only [runRule, setOutcome, h2 hi, ho, bind, Except.bind, if_true, fails]
  · have := h1 hi
    unfold FloatNum at this
    have hf := fails (some ((old : Rat) / i))
    unfold floatV at hf
    simp only [Option.map] at hf
    simp only [runRule, setOutcome, this, ho, bind, Except.bind, if_true, hf]

/-- An integer result that does not fit in 32 bits stops the processing. -/
theorem setvar_integer_overflow (st : State) (id : Str) (old i : Int) (value : Str)
    (hold : st.get id = .ok (.single (some .integer) (some (.int old)))) (ho : st.isOutcome id = .ok true)
    (hx : IntegerText value i) (hf : ¬ Fits (old + i)) :
    ∃ rule, setVar id .integer .add value = .ok rule ∧ runRule st rule = .error .valueError := by
  have hv : IntNum st (.leaf (.variable id)) old := variable_eval hold
  have hl : IntNum st (.leaf (.baseValue .integer value)) i := integer_literal hx
  have pw : Pointwise (IntNum st) [.leaf (.variable id), .leaf (.baseValue .integer value)] [old, i] :=
    .cons hv (.cons hl .nil)
  refine ⟨_, rfl, ?_⟩
  have := (sum_of_integers st _ _ (by simp) pw).2 (by simpa using hf)
  simp only [runRule, setOutcome, this, bind, Except.bind]

/-- An unknown action is not reported as such: reporting it fails. -/
theorem setvar_unknown_fails (id : Str) (bt : BaseType) (value : Str) :
    setVar id bt .unknown value = .error .nameError := rfl

/-- `Set` on an outcome that is not a number. -/
theorem setvar_set_text (st : State) (id : Str) (bt : BaseType) (old : Option Atom) (value : Str)
    (hold : st.get id = .ok (.single (some bt) old)) (ho : st.isOutcome id = .ok true)
    (hb : bt = .string ∧ value ≠ [] ∨ bt = .identifier ∧ Names.isValidNCName value = true) :
    ∃ rule st', setVar id bt .set value = .ok rule ∧ runRule st rule = .ok (st', false) ∧
      Assigned st id (.single (some bt) (some (.str value))) st' := by
  have he : eval st (.leaf (.baseValue bt value)) = .ok (.single (some bt) (some (.str value))) := by
    rw [eval]
    rcases hb with ⟨rfl, h⟩ | ⟨rfl, h⟩
    · simp only [evalLeaf, newSingle, fromText, if_neg h, bind, Except.bind]
    · simp only [evalLeaf, newSingle, fromText, h, if_true, bind, Except.bind]
  have ht : WellTyped (.single (some bt) (some (.str value))) := by
    rcases hb with ⟨rfl, h⟩ | ⟨rfl, h⟩
    · exact .single (.string _ h)
    · exact .single (.identifier _ h)
  obtain ⟨st', h⟩ := assign_ok hold ho he ht (by trivial) rfl rfl (by simp [Value.card])
  exact ⟨_, st', rfl, h⟩

/-- A session with an integer, a decimal and a text outcome. -/
def scoreSession : State :=
  ⟨[("SCORE".toList, .single (some .integer) (some (.int 7))), ("RATE".toList, .single (some .float) (some (.num 5))),
    ("GRADE".toList, .single (some .string) none)],
   [("SCORE".toList, ⟨.outcome, .single, some .integer, none, none⟩), ("RATE".toList, ⟨.outcome, .single, some .float, none, none⟩),
    ("GRADE".toList, ⟨.outcome, .single, some .string, none, none⟩)]⟩

/-- The hypotheses are met: subtract 1.5 from RATE, 3 from SCORE. -/
example : ∃ rule st', setVar "RATE".toList .float .subtract "1.5".toList = .ok rule ∧
    runRule scoreSession rule = .ok (st', false) ∧ Assigned scoreSession "RATE".toList (floatV (some (7 / 2))) st' := by
  have := setvar_float scoreSession "RATE".toList 5 (3 / 2) .subtract "1.5".toList (by decide +kernel) (by decide +kernel)
    ((double_read _ _).mp (by decide +kernel)) (by decide) (by simp)
  have e : actionResult .subtract 5 (3 / 2) = 7 / 2 := by decide +kernel
  rwa [e] at this

example : ∃ rule st', setVar "SCORE".toList .integer .subtract "3".toList = .ok rule ∧
    runRule scoreSession rule = .ok (st', false) ∧
    Assigned scoreSession "SCORE".toList (.single (some .integer) (some (.int 4))) st' :=
  setvar_integer_partial scoreSession "SCORE".toList 7 3 4 .subtract "3".toList (by decide +kernel) (by decide +kernel)
    ((integer_read _ _).mp (by decide +kernel)) (by decide) (by decide) (by decide +kernel) ⟨by decide, by decide⟩

/-- White space around the operand, which version 1 ignores, makes the migrated rule fail. -/
theorem setvar_space_fails :
    setVar "SCORE".toList .integer .set " 3".toList >>= (fun r => runRule scoreSession r >>= fun p => p.1.get "SCORE".toList) =
      .error .valueError := by
  decide +kernel

/-! ## Limits -/

theorem isOutcome_assigned {st st' : State} {id : Str} {v : Value} (h : Assigned st id v st') (n : Str)
    (hn : st.isOutcome n = .ok true) : st'.isOutcome n = .ok true := by
  have hv : Dict.has st'.vars n = true := by
    by_cases hi : n = id
    · subst hi
      rw [Dict.has_iff]
      exact ⟨v, get_eq.mp h.1⟩
    · have := h.2.1 n hi
      unfold State.isOutcome State.getDecl at hn
      by_cases hh : Dict.has st.vars n = true
      · rw [Dict.has_iff] at hh ⊢
        obtain ⟨w, hw⟩ := hh
        exact ⟨w, get_eq.mp (by rw [this]; exact get_eq.mpr hw)⟩
      · rw [if_neg hh] at hn
        cases hn
  unfold State.isOutcome State.getDecl at hn ⊢
  by_cases hh : Dict.has st.vars n = true
  · rw [if_pos hh] at hn
    rw [if_pos hv, h.2.2]
    exact hn
  · rw [if_neg hh] at hn
    cases hn

theorem assigned_refl {st : State} {id : Str} {v : Value} (h : st.get id = .ok v) : Assigned st id v st :=
  ⟨h, fun _ _ => rfl, rfl⟩

theorem assigned_trans {a b c : State} {id : Str} {v w : Value} (h1 : Assigned a id v b) (h2 : Assigned b id w c) :
    Assigned a id w c :=
  ⟨h2.1, fun n hn => (h2.2.1 n hn).trans (h1.2.1 n hn), h2.2.2.trans h1.2.2⟩

theorem isNumber_typed {v : Value} {q : Rat} (h : IsNumber v q) : WellTyped v ∧ v.card = some .single := by
  cases h with
  | integer i => exact ⟨.single (.integer i), rfl⟩
  | float q => exact ⟨.single (.float q), rfl⟩

/-- Running the rule of one limit: the outcome becomes the limit if it is beyond it. -/
theorem limit_step (floatStr : Rat → Str) (lower : Bool) (d : DecVar) (m q l : Rat) (st : State) (v w : Value)
    (hv : st.get d.id = .ok v) (hq : IsNumber v q) (ho : st.isOutcome d.id = .ok true)
    (hw : eval st (limitValue floatStr d.bt m) = .ok w) (hl : IsNumber w l) (hbt : w.bt = v.bt) (hk : Keepable w) :
    ∃ st' v' q', runRule st (limitRule floatStr (if lower then .lt else .gt) d m) = .ok (st', false) ∧
      Assigned st d.id v' st' ∧ IsNumber v' q' ∧ v'.bt = v.bt ∧
      q' = (if lower then (if q < l then l else q) else (if l < q then l else q)) := by
  obtain ⟨c1, _, c3, _⟩ := comparisons st (.leaf (.variable d.id)) (limitValue floatStr d.bt m) q l
    ⟨v, variable_eval hv, hq⟩ ⟨w, hw, hl⟩
  have test : ∃ b, eval st (.node (if lower then .lt else .gt) [.leaf (.variable d.id), limitValue floatStr d.bt m]) =
      .ok (boolV (some b)) ∧ (b = true ↔ if lower then q < l else l < q) := by
    cases lower with
    | true => simpa using c1
    | false => simpa using c3
  obtain ⟨b, hb, hbi⟩ := test
  have hbt' : branchTest st (some (.node (if lower then .lt else .gt)
      [.leaf (.variable d.id), limitValue floatStr d.bt m])) = .ok b := by
    simp only [branchTest, hb, bind, Except.bind]
    cases b <;> rfl
  obtain ⟨t1, t2⟩ := isNumber_typed hq
  obtain ⟨t3, t4⟩ := isNumber_typed hl
  cases b with
  | true =>
    obtain ⟨st', h1, h2⟩ := assign_ok hv ho hw t3 hk (t4.trans t2.symm) hbt (by rw [t4]; simp)
    refine ⟨st', w, l, ?_, h2, hl, hbt, ?_⟩
    · simp only [limitRule, runRule, runBranches, hbt', bind, Except.bind, if_true, runRules]
      rw [runRule] at h1
      simp only [bind, Except.bind] at h1
      rw [h1]
      rfl
    · have := hbi.mp rfl
      cases lower with
      | true => simp at this; simp [this]
      | false => simp at this; simp [this]
  | false =>
    refine ⟨st, v, q, ?_, assigned_refl hv, hq, rfl, ?_⟩
    · simp only [limitRule, runRule, runBranches, hbt', bind, Except.bind, Bool.false_eq_true, if_false, runRules]
    · have := mt hbi.mpr (by simp)
      cases lower with
      | true => simp at this; rw [if_pos rfl, if_neg (by grind)]
      | false => simp at this; rw [if_neg (by simp), if_neg (by grind)]

/-- Limits that are written faithfully: a numeric outcome; no limit is zero; the limits are not crossed; a decimal
limit is written with its full precision, and a limit of an integer outcome is an integer of 32 bits. -/
structure FaithfulLimits (floatStr : Rat → Str) (d : DecVar) : Prop where
  numeric : d.bt = .integer ∨ d.bt = .float
  nonzero : d.min ≠ some 0 ∧ d.max ≠ some 0
  ordered : ∀ l u, d.min = some l → d.max = some u → l ≤ u
  decimal : d.bt = .float → ∀ q, d.min = some q ∨ d.max = some q → DoubleText (floatStr q) q
  integer : d.bt = .integer → ∀ q, d.min = some q ∨ d.max = some q → ∃ i : Int, q = i ∧ Fits i

theorem truncRat_int (i : Int) : truncRat (i : Rat) = i := by
  unfold truncRat
  split
  · rw [← Rat.intCast_neg, Rat.floor_intCast, Int.neg_neg]
  · exact Rat.floor_intCast i

theorem limit_literal {floatStr : Rat → Str} {d : DecVar} (h : FaithfulLimits floatStr d) {m : Rat}
    (hm : d.min = some m ∨ d.max = some m) :
    ∃ w, (∀ st, eval st (limitValue floatStr d.bt m) = .ok w) ∧ IsNumber w m ∧ w.bt = some d.bt ∧ Keepable w := by
  rcases h.numeric with hb | hb
  · obtain ⟨i, rfl, hf⟩ := h.integer hb m hm
    refine ⟨.single (some .integer) (some (.int i)), fun st => ?_, .integer i, by rw [hb]; rfl, hf⟩
    rw [hb, limitValue, if_pos rfl, truncRat_int]
    exact integer_literal ((integer_read _ _).mp (integer_round_trip i))
  · refine ⟨.single (some .float) (some (.num m)), fun st => ?_, .float m, by rw [hb]; rfl, by trivial⟩
    rw [hb, limitValue, if_neg (by simp)]
    exact float_literal (h.decimal hb m hm)

theorem truthy_eq {o : Option Rat} (h : o ≠ some 0) : truthy o = o := by
  cases o with
  | none => rfl
  | some q =>
    unfold truthy
    dsimp only
    rw [if_neg (fun e => h (by rw [e]))]

/-- One outcome: its value is kept between the limits. -/
theorem limits_one (floatStr : Rat → Str) (d : DecVar) (h : FaithfulLimits floatStr d) (st : State) (v : Value) (q : Rat)
    (hv : st.get d.id = .ok v) (hq : IsNumber v q) (hb : v.bt = some d.bt) (ho : st.isOutcome d.id = .ok true)
    (rest : List Rule) :
    ∃ st' v' q', runRules st (limitRules floatStr d ++ rest) = runRules st' rest ∧ Assigned st d.id v' st' ∧
      IsNumber v' q' ∧ v'.bt = v.bt ∧ Clamped d.min d.max q q' := by
  have step : ∀ (lower : Bool) (m : Rat) (st : State) (v : Value) (q : Rat), (d.min = some m ∨ d.max = some m) →
      st.get d.id = .ok v → IsNumber v q → v.bt = some d.bt → st.isOutcome d.id = .ok true → ∀ rest,
      ∃ st' v' q', runRules st (limitRule floatStr (if lower then .lt else .gt) d m :: rest) = runRules st' rest ∧
        Assigned st d.id v' st' ∧ IsNumber v' q' ∧ v'.bt = v.bt ∧
        q' = (if lower then (if q < m then m else q) else (if m < q then m else q)) := by
    intro lower m st v q hm hv hq hb ho rest
    obtain ⟨w, h1, h2, h3, h4⟩ := limit_literal h hm
    obtain ⟨st', v', q', h5, h6⟩ := limit_step floatStr lower d m q m st v w hv hq ho (h1 st) h2 (by rw [h3, hb]) h4
    refine ⟨st', v', q', ?_, h6⟩
    rw [runRules, h5]
    rfl
  have hord := h.ordered
  unfold limitRules
  rw [truthy_eq h.nonzero.1, truthy_eq h.nonzero.2]
  cases hmin : d.min with
  | none =>
    cases hmax : d.max with
    | none => exact ⟨st, v, q, rfl, assigned_refl hv, hq, rfl, by simp [Clamped]⟩
    | some u =>
      obtain ⟨st', v', q', h1, h2, h3, h4, h5⟩ := step false u st v q (Or.inr hmax) hv hq hb ho rest
      refine ⟨st', v', q', h1, h2, h3, h4, ?_⟩
      have := clamp_ok none (some u) q (by simp)
      simp only [Bool.false_eq_true, if_false] at h5
      rw [h5]
      exact this
  | some l =>
    cases hmax : d.max with
    | none =>
      obtain ⟨st', v', q', h1, h2, h3, h4, h5⟩ := step true l st v q (Or.inl hmin) hv hq hb ho rest
      refine ⟨st', v', q', h1, h2, h3, h4, ?_⟩
      have := clamp_ok (some l) none q (by simp)
      simp only [if_true] at h5
      rw [h5]
      exact this
    | some u =>
      obtain ⟨st1, v1, q1, h1, h2, h3, h4, h5⟩ := step true l st v q (Or.inl hmin) hv hq hb ho
        (limitRule floatStr .gt d u :: rest)
      obtain ⟨st2, v2, q2, k1, k2, k3, k4, k5⟩ := step false u st1 v1 q1 (Or.inr hmax) h2.1 h3 (h4.trans hb)
        (isOutcome_assigned h2 d.id ho) rest
      refine ⟨st2, v2, q2, ?_, assigned_trans h2 k2, k3, k4.trans h4, ?_⟩
      · exact h1.trans k1
      · have hlu := hord l u hmin hmax
        simp only [if_true] at h5
        simp only [Bool.false_eq_true, if_false] at k5
        have : q2 = clamp (some l) (some u) q := by
          rw [k5, h5]
          unfold clamp
          dsimp only
          by_cases c1 : q < l
          · rw [if_pos c1, if_pos c1]
            split <;> grind
          · rw [if_neg c1, if_neg c1]
        rw [this]
        refine clamp_ok _ _ _ ?_
        intro a b ha hb
        cases ha; cases hb; exact hlu

/-- **C15.** For every value the other rules compute, the outcomes are within their limits when the migrated response
processing ends, values already within the limits are kept, and nothing else changes; provided that the limits
are written faithfully. -/
theorem limits_enforced_partial (floatStr : Rat → Str) : ∀ (ds : List DecVar) (st : State),
    (ds.map (·.id)).Nodup → (∀ d ∈ ds, FaithfulLimits floatStr d) →
    (∀ d ∈ ds, st.isOutcome d.id = .ok true ∧ ∃ v q, st.get d.id = .ok v ∧ IsNumber v q ∧ v.bt = some d.bt) →
    ∃ st', run st (allLimitRules floatStr ds) = .ok st' ∧ st'.decls = st.decls ∧
      (∀ d ∈ ds, ∀ v q, st.get d.id = .ok v → IsNumber v q →
        ∃ v' q', st'.get d.id = .ok v' ∧ IsNumber v' q' ∧ Clamped d.min d.max q q') ∧
      (∀ n, n ∉ ds.map (·.id) → st'.get n = st.get n) := by
  intro ds
  induction ds with
  | nil =>
    intro st _ _ _
    exact ⟨st, rfl, rfl, by simp, fun _ _ => rfl⟩
  | cons d ds ih =>
    intro st hnd hf hval
    rw [List.map_cons, List.nodup_cons] at hnd
    obtain ⟨ho, v, q, hv, hq, hb⟩ := hval d (List.mem_cons_self ..)
    obtain ⟨st1, v1, q1, h1, h2, h3, h4, h5⟩ := limits_one floatStr d (hf d (List.mem_cons_self ..)) st v q hv hq hb ho
      (allLimitRules floatStr ds)
    have hne : ∀ d' ∈ ds, d'.id ≠ d.id := fun d' hd' e => hnd.1 (List.mem_map.mpr ⟨d', hd', e⟩)
    obtain ⟨st2, k1, k2, k3, k4⟩ := ih st1 hnd.2 (fun d' hd' => hf d' (List.mem_cons_of_mem _ hd')) (by
      intro d' hd'
      obtain ⟨ho', w, r, hw⟩ := hval d' (List.mem_cons_of_mem _ hd')
      refine ⟨isOutcome_assigned h2 _ ho', w, r, ?_⟩
      rw [h2.2.1 _ (hne d' hd')]
      exact hw)
    refine ⟨st2, ?_, k2.trans h2.2.2, ?_, ?_⟩
    · unfold run at k1 ⊢
      rw [allLimitRules, List.flatMap_cons]
      unfold allLimitRules at h1 k1
      rw [h1]
      exact k1
    · intro d' hd' w r hw hr
      rcases List.mem_cons.mp hd' with rfl | hd'
      · rw [hv] at hw
        cases Except.ok.inj hw
        have e : r = q := by
          have := isNumber_rat hr
          rw [isNumber_rat hq] at this
          exact (Option.some.inj this).symm
        subst e
        refine ⟨v1, q1, ?_, h3, h5⟩
        rw [k4 _ hnd.1]
        exact h2.1
      · refine k3 d' hd' w r ?_ hr
        rw [h2.2.1 _ (hne d' hd')]
        exact hw
    · intro n hn
      rw [List.map_cons, List.mem_cons, not_or] at hn
      rw [k4 n hn.2, h2.2.1 n hn.1]

/-- A limit of zero is not enforced: a score below a minimum of zero stays there. -/
theorem zero_minimum_ignored (floatStr : Rat → Str) (st : State) (id : Str) (bt : BaseType) :
    run st (allLimitRules floatStr [⟨id, bt, some 0, none⟩]) = .ok st := by
  simp [allLimitRules, limitRules, truthy, run, runRules, bind, Except.bind]

/-- A fractional limit of an integer outcome is rounded towards zero: with a minimum of 7.5, a score of 7 stays. -/
theorem fractional_minimum_weakened (floatStr : Rat → Str) :
    (run scoreSession (allLimitRules floatStr [⟨"SCORE".toList, .integer, some (15 / 2), none⟩]) >>=
      fun st' => st'.get "SCORE".toList) = .ok (.single (some .integer) (some (.int 7))) ∧ (7 : Rat) < 15 / 2 := by
  refine ⟨?_, by decide +kernel⟩
  have e : limitRules floatStr ⟨"SCORE".toList, .integer, some (15 / 2), none⟩ =
      limitRules (fun _ => []) ⟨"SCORE".toList, .integer, some (15 / 2), none⟩ := by
    unfold limitRules limitRule limitValue
    simp
  unfold allLimitRules
  rw [List.flatMap_cons, List.flatMap_nil, e]
  decide +kernel

/-- An outcome that is not a number makes the migrated response processing fail when it has a limit. -/
theorem text_limit_fails (floatStr : Rat → Str) (hs : DoubleText (floatStr 1) 1) :
    run scoreSession (allLimitRules floatStr [⟨"GRADE".toList, .string, none, some 1⟩]) = .error .processingError := by
  have hl := float_literal (st := scoreSession) hs
  have hv : scoreSession.get "GRADE".toList = .ok (.single (some .string) none) := by decide +kernel
  simp only [allLimitRules, List.flatMap_cons, List.flatMap_nil, limitRules, truthy, List.nil_append, List.append_nil]
  rw [if_neg (by decide +kernel)]
  simp only [run, runRules, limitRule, runRule, runBranches, branchTest]
  rw [eval_two (by simp) (variable_eval hv) (by rw [limitValue, if_neg (by simp)]; exact hl)]
  rfl

/-- The hypotheses are met. -/
example : FaithfulLimits (fun _ => "1.5".toList) ⟨"RATE".toList, .float, some (3 / 2), none⟩ := by
  refine ⟨Or.inr rfl, ⟨by decide +kernel, by simp⟩, by simp, ?_, by simp⟩
  intro _ q hq
  simp at hq
  subst hq
  exact (double_read _ _).mp (by decide +kernel)

/-- And the limits bite. -/
example : (run scoreSession (allLimitRules (fun _ => "8.5".toList)
    [⟨"SCORE".toList, .integer, none, some 5⟩, ⟨"RATE".toList, .float, some (17 / 2), none⟩]) >>=
    fun st' => st'.get "SCORE".toList >>= fun v => st'.get "RATE".toList >>= fun w => .ok (v, w)) =
    .ok (.single (some .integer) (some (.int 5)), floatV (some (17 / 2))) := by
  decide +kernel

end Verif.Props
