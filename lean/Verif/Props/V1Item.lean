import Verif.Props.V1Cond
import Verif.Props.RespProc

/-!
# Migrated response processing scores as the original did

The conditions of a version 1 item, their order and `continue` flags, `setvar`, `displayfeedback` and the limits of
outcomes together.
-/

namespace Verif.Props

open Verif Verif.Qti Verif.Spec Verif.V1

set_option linter.unusedVariables false
set_option linter.unusedSectionVars false

/-! ## The rules consist of what was added -/

section
variable {E A : Type} (P : E → Prop) (Q : A → Prop)

mutual
/-- Every expression in the rule satisfies `P`, every action `Q`. -/
def RuleAll : RP.Rule E A → Prop
  | .cond e as els el => P e ∧ (∀ a ∈ as, Q a) ∧ (∀ b ∈ els, P b.1 ∧ ∀ a ∈ b.2, Q a) ∧ ElseAll el
/-- The else-branch. -/
def ElseAll : Option (List (RP.Rule E A)) → Prop
  | none => True
  | some rs => RulesAll rs
/-- Several rules. -/
def RulesAll : List (RP.Rule E A) → Prop
  | [] => True
  | r :: rs => RuleAll r ∧ RulesAll rs
end

theorem rulesAll_append (rs ts : List (RP.Rule E A)) :
    RulesAll P Q (rs ++ ts) ↔ RulesAll P Q rs ∧ RulesAll P Q ts := by
  induction rs with
  | nil => simp [RulesAll]
  | cons r rs ih => rw [List.cons_append, RulesAll, RulesAll, ih, and_assoc]

theorem getLast_split {α} {l : List α} {a : α} (h : l.getLast? = some a) : l = l.dropLast ++ [a] := by
  have hne : l ≠ [] := by rintro rfl; cases h
  have e : l.getLast hne = a := by
    rw [List.getLast?_eq_some_getLast hne] at h
    exact Option.some.inj h
  rw [← e, List.dropLast_concat_getLast]

theorem atDepth_all (f : List (RP.Rule E A) → List (RP.Rule E A)) (hf : ∀ rs, RulesAll P Q rs → RulesAll P Q (f rs)) :
    ∀ (d : Nat) (rs : List (RP.Rule E A)), RulesAll P Q rs → RulesAll P Q (RP.atDepth f d rs)
  | 0, rs, h => hf rs h
  | d + 1, rs, h => by
    rw [RP.atDepth]
    split
    · rename_i e as els el hl
      rw [getLast_split hl, rulesAll_append] at h
      obtain ⟨h1, ⟨h2, h3, h4, h5⟩, _⟩ := h
      rw [rulesAll_append]
      exact ⟨h1, ⟨h2, h3, h4, atDepth_all f hf d el h5⟩, trivial⟩
    · exact h

theorem atLast_all (g : RP.Rule E A → RP.Rule E A) (hg : ∀ r, RuleAll P Q r → RuleAll P Q (g r))
    (rs : List (RP.Rule E A)) (h : RulesAll P Q rs) : RulesAll P Q (RP.atLast g rs) := by
  unfold RP.atLast
  split
  · rename_i r hl
    rw [getLast_split hl, rulesAll_append] at h
    rw [rulesAll_append]
    exact ⟨h.1, hg r h.2.1, trivial⟩
  · exact h

theorem addResponseRule_all {rs rs' : List (RP.Rule E A)} {p : RP.Point} {rc : RP.Rule E A}
    (h : RP.addResponseRule rs p rc = .ok rs') (hr : RulesAll P Q rs) (hc : RuleAll P Q rc) : RulesAll P Q rs' := by
  unfold RP.addResponseRule at h
  cases p with
  | condition d => cases h
  | container d =>
    have := Except.ok.inj h
    rw [← this]
    exact atDepth_all P Q _ (fun ts ht => by rw [rulesAll_append]; exact ⟨ht, hc, trivial⟩) d rs hr

theorem addRespCondition_all {st st' : RP.St E A} {e : E} {as : List A} {c : Bool}
    (h : RP.addRespCondition st e as c = .ok st') (hr : RulesAll P Q st.rules) (he : P e) (ha : ∀ a ∈ as, Q a) :
    RulesAll P Q st'.rules := by
  have hnew : RuleAll P Q (.cond e as [] none) := ⟨he, ha, by simp, trivial⟩
  unfold RP.addRespCondition at h
  cases c with
  | true =>
    simp only [if_true] at h
    obtain ⟨rp, hrp, h⟩ := bind_ok h
    obtain ⟨rs, hrs, h⟩ := bind_ok h
    cases h
    refine addResponseRule_all P Q hrs ?_ hnew
    split at hrp
    · cases hrp
      exact hr
    · unfold RP.getResponseElse at hrp
      split at hrp
      · cases hrp
        refine atDepth_all P Q _ (fun ts ht => atLast_all P Q _ ?_ ts ht) _ _ hr
        intro r hr
        cases r with
        | cond e' as' els el =>
          obtain ⟨h1, h2, h3, h4⟩ := hr
          cases el with
          | none => exact ⟨h1, h2, h3, trivial⟩
          | some el => exact ⟨h1, h2, h3, h4⟩
      · cases hrp
  | false =>
    simp only [Bool.false_eq_true, if_false] at h
    split at h
    · obtain ⟨rs, hrs, h⟩ := bind_ok h
      cases h
      exact addResponseRule_all P Q hrs hr hnew
    · obtain ⟨rs, hrs, h⟩ := bind_ok h
      cases h
      unfold RP.addResponseElseIf at hrs
      split at hrs
      · cases hrs
        refine atDepth_all P Q _ (fun ts ht => atLast_all P Q _ ?_ ts ht) _ _ hr
        intro r hr
        cases r with
        | cond e' as' els el =>
          obtain ⟨h1, h2, h3, h4⟩ := hr
          refine ⟨h1, h2, ?_, h4⟩
          intro b hb
          rcases List.mem_append.mp hb with hb | hb
          · exact h3 b hb
          · simp at hb
            subst hb
            exact ⟨he, ha⟩
      · cases hrs

theorem addAllConds_all : ∀ (cs : List (E × List A × Bool)) (st st' : RP.St E A),
    RP.addAllConds st cs = .ok st' → RulesAll P Q st.rules → (∀ c ∈ cs, P c.1 ∧ ∀ a ∈ c.2.1, Q a) →
    RulesAll P Q st'.rules
  | [], st, st', h, hr, _ => by cases h; exact hr
  | c :: cs, st, st', h, hr, hc => by
    rw [RP.addAllConds] at h
    obtain ⟨s, hs, h⟩ := bind_ok h
    obtain ⟨h1, h2⟩ := hc c (List.mem_cons_self ..)
    exact addAllConds_all cs s st' h (addRespCondition_all P Q hs hr h1 h2)
      fun d hd => hc d (List.mem_cons_of_mem _ hd)

end

/-! ## Running the written rules -/

/-- Does the branch test hold?  (`none`: processing has failed.) -/
def testOf (e : Expr) : Option State → Bool
  | some st => decide (branchTest st (some e) = .ok true)
  | none => false

/-- The effect of a rule; `none` if it fails. -/
def actOf (r : Rule) (o : Option State) : Option State :=
  o.bind fun st => match runRule st r with
    | .ok p => some p.1
    | .error _ => none

theorem performAll_none (as : List Rule) : performAll actOf as none = none := by
  unfold performAll
  induction as with
  | nil => rfl
  | cons a as ih => exact ih

theorem firstBranch_none : ∀ bs : List (Expr × List Rule), firstBranch testOf bs none = none
  | [] => rfl
  | b :: bs => by
    obtain ⟨e, as⟩ := b
    rw [firstBranch]
    simp only [testOf, Bool.false_eq_true, if_false]
    exact firstBranch_none bs

mutual
theorem spec_runRule_none : ∀ r : RP.Rule Expr Rule, Spec.runRule testOf actOf r none = none
  | .cond e as els el => by
    rw [Spec.runRule, firstBranch_none]
    exact spec_runElse_none el
theorem spec_runElse_none : ∀ el : Option (List (RP.Rule Expr Rule)), Spec.runElse testOf actOf el none = none
  | none => rfl
  | some rs => by
    rw [Spec.runElse]
    exact spec_runRules_none rs
theorem spec_runRules_none : ∀ rs : List (RP.Rule Expr Rule), Spec.runRules testOf actOf rs none = none
  | [] => rfl
  | r :: rs => by
    rw [Spec.runRules, spec_runRule_none r]
    exact spec_runRules_none rs
end

section
variable {Inv : State → Prop} {P : Expr → Prop} {Q : Rule → Prop}
  (hP : ∀ e, P e → ∀ st, Inv st → ∃ b, branchTest st (some e) = .ok b)
  (hQ : ∀ r, Q r → ∀ st p, Inv st → Qti.runRule st r = .ok p → p.2 = false ∧ Inv p.1)

include hQ in
theorem perform_sim : ∀ (as : List Rule) (st st' : State), (∀ a ∈ as, Q a) → Inv st →
    performAll actOf as (some st) = some st' → Qti.runRules st as = .ok (st', false) ∧ Inv st'
  | [], st, st', _, hi, h => by
    cases h
    exact ⟨rfl, hi⟩
  | a :: as, st, st', ha, hi, h => by
    have hs : performAll actOf (a :: as) (some st) = performAll actOf as (actOf a (some st)) := rfl
    rw [hs] at h
    rw [Qti.runRules]
    cases hr : Qti.runRule st a with
    | error x =>
      simp only [actOf, Option.bind, hr] at h
      rw [performAll_none] at h
      cases h
    | ok p =>
      simp only [actOf, Option.bind, hr] at h
      obtain ⟨h1, h2⟩ := hQ a (ha a (List.mem_cons_self ..)) st p hi hr
      obtain ⟨h3, h4⟩ := perform_sim as p.1 st' (fun b hb => ha b (List.mem_cons_of_mem _ hb)) h2 h
      refine ⟨?_, h4⟩
      simp only [bind, Except.bind, h1, Bool.false_eq_true, if_false, h3]

include hP hQ in
theorem branches_sim : ∀ (bs : List (Expr × List Rule)) (st : State), (∀ b ∈ bs, P b.1 ∧ ∀ a ∈ b.2, Q a) → Inv st →
    match firstBranch testOf bs (some st) with
    | none => Qti.runBranches st (bs.map fun b => .mk (some b.1) b.2) = .ok none
    | some as => (∀ a ∈ as, Q a) ∧ ∀ st', performAll actOf as (some st) = some st' →
        Qti.runBranches st (bs.map fun b => .mk (some b.1) b.2) = .ok (some (st', false))
  | [], st, _, hi => rfl
  | (e, as) :: bs, st, hb, hi => by
    obtain ⟨h1, h2⟩ := hb (e, as) (List.mem_cons_self ..)
    obtain ⟨b, hbt⟩ := hP e h1 st hi
    have ih := branches_sim bs st (fun c hc => hb c (List.mem_cons_of_mem _ hc)) hi
    rw [firstBranch, List.map_cons]
    cases b with
    | true =>
      have ht : testOf e (some st) = true := by simp [testOf, hbt]
      rw [if_pos ht]
      refine ⟨h2, fun st' hst' => ?_⟩
      have := (perform_sim hQ as st st' h2 hi hst').1
      simp only [Qti.runBranches, hbt, bind, Except.bind, if_true, this]
    | false =>
      have ht : testOf e (some st) = false := by simp [testOf, hbt]
      rw [ht]
      simp only [Bool.false_eq_true, if_false]
      have hrb : Qti.runBranches st (.mk (some e) as :: bs.map fun b => .mk (some b.1) b.2) =
          Qti.runBranches st (bs.map fun b => .mk (some b.1) b.2) := by
        simp only [Qti.runBranches, hbt, bind, Except.bind, Bool.false_eq_true, if_false]
      rw [hrb]
      exact ih

include hP hQ

mutual
theorem rule_sim : ∀ (r : RP.Rule Expr Rule) (st st' : State), RuleAll P Q r → Inv st →
    Spec.runRule testOf actOf r (some st) = some st' → Qti.runRule st (readRule r) = .ok (st', false) ∧ Inv st'
  | .cond e as els el, st, st', ⟨h1, h2, h3, h4⟩, hi, h => by
    have hb := branches_sim hP hQ ((e, as) :: els) st (by
      intro b hb
      rcases List.mem_cons.mp hb with rfl | hb
      · exact ⟨h1, h2⟩
      · exact h3 b hb) hi
    rw [Spec.runRule] at h
    rw [readRule, Qti.runRule]
    rw [List.map_cons] at hb
    cases hf : firstBranch testOf ((e, as) :: els) (some st) with
    | none =>
      rw [hf] at h hb
      dsimp only at h hb
      rw [hb]
      simp only [bind, Except.bind]
      exact else_sim el st st' h4 hi h
    | some bs =>
      rw [hf] at h hb
      dsimp only at h hb
      obtain ⟨h5, h6⟩ := hb
      rw [h6 st' h]
      simp only [bind, Except.bind]
      exact ⟨trivial, (perform_sim hQ bs st st' h5 hi h).2⟩
theorem else_sim : ∀ (el : Option (List (RP.Rule Expr Rule))) (st st' : State), ElseAll P Q el → Inv st →
    Spec.runElse testOf actOf el (some st) = some st' → Qti.runRules st (readElse el) = .ok (st', false) ∧ Inv st'
  | none, st, st', _, hi, h => by
    cases h
    exact ⟨rfl, hi⟩
  | some rs, st, st', ha, hi, h => by
    rw [readElse]
    exact rules_sim rs st st' ha hi h
theorem rules_sim : ∀ (rs : List (RP.Rule Expr Rule)) (st st' : State), RulesAll P Q rs → Inv st →
    Spec.runRules testOf actOf rs (some st) = some st' → Qti.runRules st (readRules rs) = .ok (st', false) ∧ Inv st'
  | [], st, st', _, hi, h => by
    cases h
    exact ⟨rfl, hi⟩
  | r :: rs, st, st', ⟨h1, h2⟩, hi, h => by
    rw [Spec.runRules] at h
    cases hr : Spec.runRule testOf actOf r (some st) with
    | none =>
      rw [hr, spec_runRules_none] at h
      cases h
    | some s =>
      rw [hr] at h
      obtain ⟨h3, h4⟩ := rule_sim r st s h1 hi hr
      obtain ⟨h5, h6⟩ := rules_sim rs s st' h2 h4 h
      refine ⟨?_, h6⟩
      rw [readRules, Qti.runRules, h3]
      simp only [bind, Except.bind, Bool.false_eq_true, if_false, h5]
end

end

/-! ## Branches and effects of version 1 -/

theorem branch_truth {st : State} {e : Expr} {v : Value} {t : Option Bool} (he : eval st e = .ok v) (ht : IsTruth v t) :
    branchTest st (some e) = .ok (decide (t = some true)) := by
  simp only [branchTest, he, bind, Except.bind]
  cases ht with
  | bool b => cases b <;> rfl
  | null => rfl
  | untyped => rfl
  | unknown => rfl

/-- The session holds the answers, in variables that are not outcomes. -/
def AnswersKept (env : Env) (R : Answers) (st : State) : Prop :=
  HoldsAnswers env st R ∧ ∀ r a id c b, R r = some a → env r = some (id, c, b) → st.isOutcome id ≠ .ok true

theorem answers_kept {env : Env} {R : Answers} {st : State} (h : AnswersKept env R st) {r : Rule} {p : State × Bool}
    (hr : Qti.runRule st r = .ok p) : AnswersKept env R p.1 := by
  obtain ⟨st', b⟩ := p
  obtain ⟨h1, h2⟩ := runRule_effect r st st' b h.1.1 hr
  refine ⟨⟨h1, fun q a hq => ?_⟩, fun q a id c b hq he => ?_⟩
  · obtain ⟨id, v, h3, h4, h5⟩ := h.1.2 q a hq
    obtain ⟨v', h6, _, _, h7⟩ := h2.kept id v (get_eq.mp h4)
    have := h7 (h.2 q a id _ _ hq h3)
    subst this
    exact ⟨id, v', h3, get_eq.mpr h6, h5⟩
  · show st'.isOutcome id ≠ _
    rw [onlyOutcomes_isOutcome h2]
    exact h.2 q a id c b hq he

/-- A rule that sets an outcome. -/
def IsSet (r : Rule) : Prop := ∃ i e, r = .setOutcomeValue i e

theorem set_goes_on {st : State} {r : Rule} {p : State × Bool} (h : IsSet r) (hr : Qti.runRule st r = .ok p) :
    p.2 = false := by
  obtain ⟨i, e, rfl⟩ := h
  rw [Qti.runRule] at hr
  obtain ⟨s, _, hr⟩ := bind_ok hr
  cases hr
  rfl

theorem effectRules_sets (outs : Outs) : ∀ (fs : List Effect) (rules : List Rule),
    effectRules outs fs = .ok rules → ∀ r ∈ rules, IsSet r
  | [], rules, h => by cases h; simp
  | f :: fs, rules, h => by
    rw [effectRules] at h
    obtain ⟨r, hr, h⟩ := bind_ok h
    obtain ⟨rs, hrs, h⟩ := bind_ok h
    cases h
    intro q hq
    rcases List.mem_cons.mp hq with rfl | hq
    · cases f with
      | setvar n a t =>
        rw [effectRule] at hr
        unfold setVar at hr
        cases a <;> cases hr <;> exact ⟨_, _, rfl⟩
      | displayfeedback l => cases hr; exact ⟨_, _, rfl⟩
    · exact effectRules_sets outs fs rs hrs q hq

theorem feedback_step {st : State} (hst : GoodState st) {as : List Atom} {name : Str}
    (hg : st.get "FEEDBACK".toList = .ok (.multiple (some .identifier) as))
    (ho : st.isOutcome "FEEDBACK".toList = .ok true) (hn : Names.isValidNCName name = true) :
    ∃ st' as', Qti.runRule st (displayFeedback name) = .ok (st', false) ∧
      Assigned st "FEEDBACK".toList (.multiple (some .identifier) as') st' ∧
      ∀ a, a ∈ as' ↔ a ∈ as ∨ a = .str name := by
  have hlit : eval st (.leaf (.baseValue .identifier name)) = .ok (.single (some .identifier) (some (.str name))) := by
    simp only [eval, evalLeaf, newSingle, fromText, hn, if_true, bind, Except.bind]
  have hty : WellTyped (.multiple (some .identifier) as) := eval_typed st hst _ _ (variable_eval hg)
  obtain ⟨b, bs, h1, h2, h3⟩ := multiple_unites st hst
    [.leaf (.variable "FEEDBACK".toList), .leaf (.baseValue .identifier name)]
    [.multiple (some .identifier) as, .single (some .identifier) (some (.str name))] .identifier
    (.cons (variable_eval hg) (.cons hlit .nil)) (by
      intro v hv
      simp only [List.mem_cons, List.not_mem_nil, or_false] at hv
      rcases hv with rfl | rfl
      · refine ⟨Or.inr rfl, Or.inr (Or.inr rfl), ?_⟩
        cases hty with
        | multiple h =>
          intro a ha
          obtain ⟨_, _, _, h⟩ := h a ha
          exact h
      · refine ⟨Or.inr rfl, Or.inr (Or.inl rfl), ?_⟩
        intro a ha
        simp [members] at ha
        subst ha
        trivial)
  have hb := h3 ⟨_, List.mem_cons_self .., by simp [Value.bt]⟩
  subst hb
  have hmem : ∀ a, a ∈ bs ↔ a ∈ as ∨ a = .str name := by
    intro a
    have := h2 a
    simp only [List.map_cons, List.map_nil, List.sum_cons, List.sum_nil, members] at this
    have pos : ∀ l : List Atom, a ∈ l ↔ 0 < occurrences a l := by
      intro l
      unfold occurrences
      rw [List.length_pos_iff_exists_mem]
      constructor
      · intro h
        exact ⟨a, by simp [h]⟩
      · rintro ⟨c, hc⟩
        simp at hc
        rw [← hc.2]
        exact hc.1
    rw [pos bs, this, ← List.mem_singleton (a := a) (b := Atom.str name), pos as, pos [Atom.str name]]
    omega
  have hbty : WellTyped (.multiple (some .identifier) bs) := eval_typed st hst _ _ h1
  have hd : ∀ a ∈ distinct bs, ∃ b, some BaseType.identifier = some b ∧ HasType b a ∧ InRange a := by
    cases hbty with
    | multiple h => exact fun a ha => h a ((mem_distinct a bs).mp ha)
  have hnull : bs ≠ [] := by
    intro e
    have := (hmem (.str name)).mpr (Or.inr rfl)
    rw [e] at this
    cases this
  have hcopy : copyInto (.multiple (some .identifier) as) (.multiple (some .identifier) bs) =
      .ok (.multiple (some .identifier) (distinct bs)) := by
    unfold copyInto
    rw [if_neg (by simp [Value.isNull, hnull])]
    simp only [containerOf_same hd]
    rfl
  refine ⟨{ st with vars := Dict.set st.vars "FEEDBACK".toList (.multiple (some .identifier) (distinct bs)) },
    distinct bs, ?_, ⟨?_, ?_, rfl⟩, fun a => by rw [mem_distinct, hmem]⟩
  · unfold displayFeedback
    have hset : st.set "FEEDBACK".toList (.multiple (some .identifier) bs) =
        .ok { st with vars := Dict.set st.vars "FEEDBACK".toList (.multiple (some .identifier) (distinct bs)) } := by
      unfold State.set
      rw [hg]
      simp only [bind, Except.bind]
      rw [if_neg (fun h => h.2 rfl)]
      simp only [pure, Except.pure]
      rw [if_neg (fun h => h.2 rfl), hcopy]
    simp only [Qti.runRule, setOutcome, h1, ho, bind, Except.bind, if_true, hset]
  · rw [get_eq]
    show Dict.get (Dict.set _ _ _) _ = _
    rw [Dict.get_set, if_pos rfl]
  · intro other ho
    unfold State.get
    dsimp only
    rw [Dict.get_set, if_neg ho]

/-- The names of outcomes stay apart. -/
def NamesApart (outs : Outs) (names : List Str) (feedback : Prop) : Prop :=
  (∀ n ∈ names, ∀ m ∈ names, (outs n).1 = (outs m).1 → n = m) ∧
  (feedback → ∀ n ∈ names, (outs n).1 ≠ "FEEDBACK".toList)

/-- The effects name declared outcomes and known actions. -/
def EffectsKnown (names : List Str) (feedback : Prop) (fs : List Effect) : Prop :=
  (∀ n a t, .setvar n a t ∈ fs → n ∈ names ∧ a ≠ .unknown) ∧ (∀ l, .displayfeedback l ∈ fs → feedback)

theorem effectRules_ok (outs : Outs) {names : List Str} {fb : Prop} : ∀ (fs : List Effect), EffectsKnown names fb fs →
    ∃ rules, effectRules outs fs = .ok rules
  | [], _ => ⟨[], rfl⟩
  | f :: fs, h => by
    obtain ⟨rs, hrs⟩ := effectRules_ok outs fs
      ⟨fun n a t hm => h.1 n a t (List.mem_cons_of_mem _ hm), fun l hm => h.2 l (List.mem_cons_of_mem _ hm)⟩
    have : ∃ r, effectRule outs f = .ok r := by
      cases f with
      | setvar n a t =>
        have := (h.1 n a t (List.mem_cons_self ..)).2
        cases a <;> first | exact ⟨_, rfl⟩ | exact absurd rfl this
      | displayfeedback l => exact ⟨_, rfl⟩
    obtain ⟨r, hr⟩ := this
    exact ⟨r :: rs, by simp only [effectRules, hr, hrs, bind, Except.bind]⟩

theorem isNumber_integer {v : Value} {q : Rat} (h : IsNumber v q) (hb : v.bt = some .integer) :
    ∃ i : Int, q = i ∧ v = .single (some .integer) (some (.int i)) := by
  cases h with
  | integer i => exact ⟨i, rfl, rfl⟩
  | float q => cases hb

theorem isNumber_float {v : Value} {q : Rat} (h : IsNumber v q) (hb : v.bt = some .float) : v = floatV (some q) := by
  cases h with
  | integer i => cases hb
  | float q => rfl

/-- Effects of version 1 and the rules written for them. -/
theorem effects_sim {env : Env} {R : Answers} {outs : Outs} {names : List Str} {fb : Prop}
    (hap : NamesApart outs names fb) {fs : List Effect} {s s' : Results}
    (hp : Performs (fun n => (outs n).2) fs s s') : ∀ (st : State) (rules : List Rule), EffectsKnown names fb fs →
    effectRules outs fs = .ok rules → AnswersKept env R st → HoldsResults outs names fb st s →
    ∃ st', performAll actOf rules (some st) = some st' ∧ AnswersKept env R st' ∧ HoldsResults outs names fb st' s' := by
  induction hp with
  | nil s =>
    intro st rules _ hr ha hs
    cases hr
    exact ⟨st, rfl, ha, hs⟩
  | @setvar n a text x s s' fs hop hres _ ih =>
    intro st rules hk hr ha hs
    obtain ⟨hn, hun⟩ := hk.1 n a text (List.mem_cons_self ..)
    obtain ⟨ho, v, hv, hnum, hbt⟩ := hs.value n hn
    rw [effectRules] at hr
    obtain ⟨r, hr1, hr⟩ := bind_ok hr
    obtain ⟨rs, hrs, hr⟩ := bind_ok hr
    cases hr
    have step : ∃ st1 w, Qti.runRule st r = .ok (st1, false) ∧ Assigned st (outs n).1 w st1 ∧
        IsNumber w (actionResult a (s.value n) x) ∧ w.bt = some (outs n).2 := by
      rw [effectRule] at hr1
      generalize hb : (outs n).2 = bt at hop hres hbt hr1
      cases hop with
      | @integer _ i hi =>
        obtain ⟨old, hq, rfl⟩ := isNumber_integer hnum hbt
        obtain ⟨_, hdiv, hint⟩ := hres
        obtain ⟨j, hj, hf⟩ := hint rfl
        have hd : a ≠ .divide := by
          intro e
          have := (hdiv e).2
          cases this
        obtain ⟨rule, st1, h1, h2, h3⟩ := setvar_integer_partial st (outs n).1 old i j a text hv ho hi hun hd
          (by rw [← hj, hq]) hf
        have := Except.ok.inj (h1.symm.trans hr1)
        subst this
        refine ⟨st1, _, h2, h3, ?_, rfl⟩
        rw [hj]
        exact .integer j
      | @float _ q hq =>
        have := isNumber_float hnum hbt
        subst this
        obtain ⟨rule, st1, h1, h2, h3⟩ := setvar_float st (outs n).1 (s.value n) x a text hv ho hq hun
          (fun e => (hres.2.1 e).1)
        have := Except.ok.inj (h1.symm.trans hr1)
        subst this
        exact ⟨st1, _, h2, h3, .float _, rfl⟩
    obtain ⟨st1, w, h1, h2, h3, h4⟩ := step
    have hk' : EffectsKnown names fb fs :=
      ⟨fun n a t hm => hk.1 n a t (List.mem_cons_of_mem _ hm), fun l hm => hk.2 l (List.mem_cons_of_mem _ hm)⟩
    suffices hs1 : HoldsResults outs names fb st1 ⟨fun m => if m = n then actionResult a (s.value n) x else s.value m, s.shown⟩ by
      obtain ⟨st', h5, h6, h7⟩ := ih st1 rs hk' hrs (answers_kept ha h1) hs1
      refine ⟨st', ?_, h6, h7⟩
      rw [← h5]
      show performAll actOf rs (actOf r (some st)) = _
      simp only [actOf, Option.bind, h1]
    constructor
    · intro m hm
      obtain ⟨ho', v', hv', hnum', hbt'⟩ := hs.value m hm
      refine ⟨isOutcome_assigned h2 _ ho', ?_⟩
      by_cases e : m = n
      · subst e
        simp only [if_true]
        exact ⟨w, h2.1, h3, h4⟩
      · simp only [if_neg e]
        refine ⟨v', ?_, hnum', hbt'⟩
        rw [h2.2.1 _ (fun h => e (hap.1 m hm n hn h))]
        exact hv'
    · intro hfb
      obtain ⟨ho', as, hg, hsh⟩ := hs.shown hfb
      refine ⟨isOutcome_assigned h2 _ ho', as, ?_, hsh⟩
      rw [h2.2.1 _ (fun h => hap.2 hfb n hn h.symm)]
      exact hg
  | @feedback name s s' fs hname _ ih =>
    intro st rules hk hr ha hs
    have hfb := hk.2 name (List.mem_cons_self ..)
    obtain ⟨ho, as, hg, hsh⟩ := hs.shown hfb
    rw [effectRules] at hr
    obtain ⟨r, hr1, hr⟩ := bind_ok hr
    obtain ⟨rs, hrs, hr⟩ := bind_ok hr
    cases hr
    cases hr1
    obtain ⟨st1, as', h1, h2, h3⟩ := feedback_step ha.1.1 hg ho (plain_valid hname)
    have hk' : EffectsKnown names fb fs :=
      ⟨fun n a t hm => hk.1 n a t (List.mem_cons_of_mem _ hm), fun l hm => hk.2 l (List.mem_cons_of_mem _ hm)⟩
    suffices hs1 : HoldsResults outs names fb st1 ⟨s.value, fun m => m = name ∨ s.shown m⟩ by
      obtain ⟨st', h5, h6, h7⟩ := ih st1 rs hk' hrs (answers_kept ha h1) hs1
      refine ⟨st', ?_, h6, h7⟩
      rw [← h5]
      show performAll actOf rs (actOf (displayFeedback name) (some st)) = _
      simp only [actOf, Option.bind, h1]
    constructor
    · intro m hm
      obtain ⟨ho', v', hv', hnum', hbt'⟩ := hs.value m hm
      refine ⟨isOutcome_assigned h2 _ ho', v', ?_, hnum', hbt'⟩
      rw [h2.2.1 _ (hap.2 hfb m hm)]
      exact hv'
    · intro _
      refine ⟨isOutcome_assigned h2 _ ho, as', h2.1, fun m => ?_⟩
      rw [h3, ← hsh]
      simp [or_comm]

/-- Every respcondition is one that migration keeps. -/
def Migratable (R : Answers) (names : List Str) (feedback : Prop) (c : RespCondition) : Prop :=
  c.conds ≠ [] ∧ SupportedAll R c.conds ∧ NegatesAnsweredAll R c.conds ∧ EffectsKnown names feedback c.effects

theorem respConditions_ok {env : Env} {R : Answers} {outs : Outs} {names : List Str} {fb : Prop} {st : State}
    (ha : HoldsAnswers env st R) : ∀ rcs : List RespCondition, (∀ c ∈ rcs, Migratable R names fb c) →
    ∃ cs, respConditions env outs rcs = .ok cs
  | [], _ => ⟨[], rfl⟩
  | c :: rcs, h => by
    obtain ⟨cs, hcs⟩ := respConditions_ok (outs := outs) ha rcs fun d hd => h d (List.mem_cons_of_mem _ hd)
    obtain ⟨h1, h2, h3, h4⟩ := h c (List.mem_cons_self ..)
    obtain ⟨e, v, t, he, _⟩ := condition_meaning_partial ha c.conds h1 h2
    obtain ⟨rs, hrs⟩ := effectRules_ok outs c.effects h4
    exact ⟨(e, rs, c.continueFlag) :: cs, by simp only [respConditions, he, hrs, hcs, bind, Except.bind]⟩

theorem respConditions_parts {env : Env} {R : Answers} {outs : Outs} {names : List Str} {fb : Prop} :
    ∀ (rcs : List RespCondition) (cs : List (Expr × List Rule × Bool)), (∀ c ∈ rcs, Migratable R names fb c) →
    respConditions env outs rcs = .ok cs →
    ∀ c ∈ cs, (∃ ds, ds ≠ [] ∧ SupportedAll R ds ∧ conditionVar env ds = .ok c.1) ∧ ∀ r ∈ c.2.1, IsSet r
  | [], cs, _, h => by cases h; simp
  | c :: rcs, cs, hm, h => by
    rw [respConditions] at h
    obtain ⟨e, he, h⟩ := bind_ok h
    obtain ⟨rs, hrs, h⟩ := bind_ok h
    obtain ⟨rest, hrest, h⟩ := bind_ok h
    cases h
    intro d hd
    rcases List.mem_cons.mp hd with rfl | hd
    · have := hm c (List.mem_cons_self ..)
      exact ⟨⟨c.conds, this.1, this.2.1, he⟩, effectRules_sets outs _ _ hrs⟩
    · exact respConditions_parts rcs rest (fun q hq => hm q (List.mem_cons_of_mem _ hq)) hrest d hd

theorem conditions_sim {env : Env} {R : Answers} {outs : Outs} {names : List Str} {fb : Prop}
    (hap : NamesApart outs names fb) {rcs : List RespCondition} {s s' : Results}
    (hsc : Scored R (fun n => (outs n).2) rcs s s') : ∀ (st : State) (cs : List (Expr × List Rule × Bool)),
    (∀ c ∈ rcs, Migratable R names fb c) → respConditions env outs rcs = .ok cs → AnswersKept env R st →
    HoldsResults outs names fb st s →
    ∃ st', runConditions testOf actOf cs (some st) = some st' ∧ HoldsResults outs names fb st' s' := by
  have test : ∀ (c : RespCondition) (st : State) (e : Expr), Migratable R names fb c → AnswersKept env R st →
      conditionVar env c.conds = .ok e → (testOf e (some st) = true ↔ SatAll R c.conds) := by
    intro c st e hm ha he
    obtain ⟨e', v, t, h1, h2, h3, _, _, h4⟩ := condition_meaning_partial ha.1 c.conds hm.1 hm.2.1
    have := Except.ok.inj (h1.symm.trans he)
    subst this
    rw [← h4 hm.2.2.1]
    simp [testOf, branch_truth h2 h3]
  induction hsc with
  | nil s =>
    intro st cs _ h ha hs
    cases h
    exact ⟨st, rfl, hs⟩
  | @skip c rcs s s' hsat _ ih =>
    intro st cs hm h ha hs
    rw [respConditions] at h
    obtain ⟨e, he, h⟩ := bind_ok h
    obtain ⟨rs, hrs, h⟩ := bind_ok h
    obtain ⟨rest, hrest, h⟩ := bind_ok h
    cases h
    obtain ⟨st', h1, h2⟩ := ih st rest (fun q hq => hm q (List.mem_cons_of_mem _ hq)) hrest ha hs
    refine ⟨st', ?_, h2⟩
    rw [runConditions, if_neg (fun ht => hsat ((test c st e (hm c (List.mem_cons_self ..)) ha he).mp ht))]
    exact h1
  | @stop c rcs s s' hsat hc hp =>
    intro st cs hm h ha hs
    rw [respConditions] at h
    obtain ⟨e, he, h⟩ := bind_ok h
    obtain ⟨rs, hrs, h⟩ := bind_ok h
    obtain ⟨rest, hrest, h⟩ := bind_ok h
    cases h
    obtain ⟨st', h1, _, h2⟩ := effects_sim hap hp st rs (hm c (List.mem_cons_self ..)).2.2.2 hrs ha hs
    refine ⟨st', ?_, h2⟩
    rw [runConditions, if_pos ((test c st e (hm c (List.mem_cons_self ..)) ha he).mpr hsat), hc,
      if_neg (by simp)]
    exact h1
  | @go c rcs s s' s'' hsat hc hp _ ih =>
    intro st cs hm h ha hs
    rw [respConditions] at h
    obtain ⟨e, he, h⟩ := bind_ok h
    obtain ⟨rs, hrs, h⟩ := bind_ok h
    obtain ⟨rest, hrest, h⟩ := bind_ok h
    cases h
    obtain ⟨st1, h1, h1', h2⟩ := effects_sim hap hp st rs (hm c (List.mem_cons_self ..)).2.2.2 hrs ha hs
    obtain ⟨st', h3, h4⟩ := ih st1 rest (fun q hq => hm q (List.mem_cons_of_mem _ hq)) hrest h1' h2
    refine ⟨st', ?_, h4⟩
    rw [runConditions, if_pos ((test c st e (hm c (List.mem_cons_self ..)) ha he).mpr hsat), hc,
      if_pos rfl, h1]
    exact h3

theorem runRules_append_ok {st st' : State} : ∀ {rs ts : List Rule}, Qti.runRules st rs = .ok (st', false) →
    Qti.runRules st (rs ++ ts) = Qti.runRules st' ts
  | [], ts, h => by cases h; rfl
  | r :: rs, ts, h => by
    rw [Qti.runRules] at h
    obtain ⟨⟨s, b⟩, hs, h⟩ := bind_ok h
    rw [List.cons_append, Qti.runRules, hs]
    cases b with
    | true => cases h
    | false =>
      simp only [bind, Except.bind, Bool.false_eq_true, if_false] at h ⊢
      exact runRules_append_ok h

/-- **Migrated items score as the originals.** For every item of conditions that migration keeps, every set of
answers held by the session and every state of its outcomes: if version 1 processing ends with results `s'`, the
response processing written for the item runs, and leaves in the outcomes those numbers kept within the declared
limits, and in `FEEDBACK` what is shown. -/
theorem item_scores_partial (floatStr : Rat → Str) (env : Env) (outs : Outs) (names : List Str)
    (lo hi : Str → Option Rat) (rcs : List RespCondition) (R : Answers) (st : State) (s s' : Results)
    (hans : AnswersKept env R st) (hnames : names.Nodup) (hap : NamesApart outs names (ShowsFeedback rcs))
    (hlim : ∀ n ∈ names, FaithfulLimits floatStr ⟨(outs n).1, (outs n).2, lo n, hi n⟩)
    (hm : ∀ c ∈ rcs, Migratable R names (ShowsFeedback rcs) c)
    (hs : HoldsResults outs names (ShowsFeedback rcs) st s)
    (hsc : Scored R (fun n => (outs n).2) rcs s s') :
    ∃ rules st' q, responseProcessing floatStr env outs rcs
        (names.map fun n => ⟨(outs n).1, (outs n).2, lo n, hi n⟩) = .ok rules ∧
      run st rules = .ok st' ∧
      (∀ n ∈ names, Clamped (lo n) (hi n) (s'.value n) (q n)) ∧
      HoldsResults outs names (ShowsFeedback rcs) st' ⟨q, s'.shown⟩ := by
  obtain ⟨cs, hcs⟩ := respConditions_ok (outs := outs) hans.1 rcs hm
  obtain ⟨b, hb, hmean⟩ := response_conditions_meaning cs
  obtain ⟨st1, h1, h2⟩ := conditions_sim hap hsc st cs hm hcs hans hs
  have hall : RulesAll (fun e => ∃ ds, ds ≠ [] ∧ SupportedAll R ds ∧ conditionVar env ds = .ok e) IsSet b.rules :=
    addAllConds_all _ _ cs RP.St.init b hb trivial (respConditions_parts rcs cs hm hcs)
  rw [← hmean] at h1
  obtain ⟨h3, h4⟩ := rules_sim (Inv := AnswersKept env R)
    (P := fun e => ∃ ds, ds ≠ [] ∧ SupportedAll R ds ∧ conditionVar env ds = .ok e) (Q := IsSet)
    (by
      rintro e ⟨ds, h1, h2, h3⟩ st ha
      obtain ⟨e', v, t, h4, h5, h6, _⟩ := condition_meaning_partial ha.1 ds h1 h2
      have := Except.ok.inj (h4.symm.trans h3)
      subst this
      exact ⟨_, branch_truth h5 h6⟩)
    (fun r hr st p hi hp => ⟨set_goes_on hr hp, answers_kept hi hp⟩) b.rules st st1 hall hans h1
  have hnd : ((names.map fun n => (⟨(outs n).1, (outs n).2, lo n, hi n⟩ : DecVar)).map (·.id)).Nodup := by
    rw [List.map_map]
    have : ∀ l : List Str, l.Nodup → (∀ n ∈ l, n ∈ names) →
        (l.map ((fun d : DecVar => d.id) ∘ fun n => ⟨(outs n).1, (outs n).2, lo n, hi n⟩)).Nodup := by
      intro l
      induction l with
      | nil => intro _ _; exact List.nodup_nil
      | cons n l ih =>
        intro hn hl
        rw [List.map_cons, List.nodup_cons]
        refine ⟨?_, ih (List.nodup_cons.mp hn).2 fun m hm => hl m (List.mem_cons_of_mem _ hm)⟩
        intro hmem
        obtain ⟨m, hm, he⟩ := List.mem_map.mp hmem
        have := hap.1 m (hl m (List.mem_cons_of_mem _ hm)) n (hl n (List.mem_cons_self ..)) he
        subst this
        exact (List.nodup_cons.mp hn).1 hm
    exact this names hnames fun _ h => h
  obtain ⟨st', h5, h6, h7, h8⟩ := limits_enforced_partial floatStr
    (names.map fun n => ⟨(outs n).1, (outs n).2, lo n, hi n⟩) st1 hnd
    (by
      intro d hd
      obtain ⟨n, hn, rfl⟩ := List.mem_map.mp hd
      exact hlim n hn)
    (by
      intro d hd
      obtain ⟨n, hn, rfl⟩ := List.mem_map.mp hd
      obtain ⟨a, v, b, c, d⟩ := h2.value n hn
      exact ⟨a, v, _, b, c, d⟩)
  have hrun : run st (readRules b.rules ++ allLimitRules floatStr
      (names.map fun n => ⟨(outs n).1, (outs n).2, lo n, hi n⟩)) = .ok st' := by
    rw [run, runRules_append_ok h3]
    exact h5
  have heff := runRules_effect (allLimitRules floatStr (names.map fun n => ⟨(outs n).1, (outs n).2, lo n, hi n⟩)) st1
  have hfin : ∀ n, ∃ q, n ∈ names → Clamped (lo n) (hi n) (s'.value n) q ∧
      ∃ v, st'.get (outs n).1 = .ok v ∧ IsNumber v q := by
    intro n
    by_cases hn : n ∈ names
    · obtain ⟨a, v, b, c, d⟩ := h2.value n hn
      obtain ⟨v', q', e1, e2, e3⟩ := h7 ⟨(outs n).1, (outs n).2, lo n, hi n⟩ (List.mem_map.mpr ⟨n, hn, rfl⟩) v _ b c
      exact ⟨q', fun _ => ⟨e3, v', e1, e2⟩⟩
    · exact ⟨0, fun h => absurd h hn⟩
  obtain ⟨q, hq⟩ := Classical.axiomOfChoice hfin
  rw [run] at h5
  obtain ⟨⟨st2, t⟩, h9, h10⟩ := bind_ok h5
  cases h10
  obtain ⟨_, hout⟩ := heff _ _ h4.1.1 h9
  refine ⟨_, _, q, ?_, hrun, fun n hn => (hq n hn).1, ?_, ?_⟩
  · simp only [responseProcessing, hcs, hb, bind, Except.bind]
  · intro n hn
    obtain ⟨a, v, b, c, d⟩ := h2.value n hn
    obtain ⟨_, w, e1, e2⟩ := hq n hn
    refine ⟨?_, w, e1, e2, ?_⟩
    · rw [onlyOutcomes_isOutcome hout]
      exact a
    · obtain ⟨v', e3, _, e4, _⟩ := hout.kept _ _ (get_eq.mp b)
      have := e3.symm.trans (get_eq.mp e1)
      cases this
      rw [e4]
      exact d
  · intro hfb
    obtain ⟨a, as, b, c⟩ := h2.shown hfb
    refine ⟨?_, as, ?_, c⟩
    · rw [onlyOutcomes_isOutcome hout]
      exact a
    · rw [h8]
      · exact b
      · intro hmem
        rw [List.map_map] at hmem
        obtain ⟨n, hn, he⟩ := List.mem_map.mp hmem
        exact hap.2 hfb n hn he

/-! ## An item -/

/-- The session of `answerSession` with an outcome `N` and feedback. -/
def itemSession : State :=
  ⟨answerSession.vars ++ [(['N'], .single (some .integer) (some (.int 0))),
      ("FEEDBACK".toList, .multiple (some .identifier) [])],
   [(['N'], ⟨.outcome, .single, some .integer, none, none⟩),
    ("FEEDBACK".toList, ⟨.outcome, .multiple, some .identifier, none, none⟩)]⟩

/-- Choosing `B` gives 2 points and shows `F`; text `zz` gives 100 points and ends processing; everything gives 5
points. -/
def itemConditions : List RespCondition :=
  [⟨[.test (.varequal false) ['M'] none ['B']], [.setvar ['N'] .add "2".toList, .displayfeedback ['F']], true⟩,
   ⟨[.test (.varequal true) ['T'] none "zz".toList], [.setvar ['N'] .set "100".toList], false⟩,
   ⟨[.other], [.setvar ['N'] .add "5".toList], false⟩]

def itemOuts : Outs := fun n => (n, .integer)

theorem itemFeedback : ShowsFeedback itemConditions :=
  ⟨_, List.mem_cons_self .., ['F'], by simp⟩

theorem item_answers : AnswersKept answerEnv sampleAnswers itemSession := by
  refine ⟨⟨?_, ?_⟩, ?_⟩
  · intro p hp
    simp only [itemSession, List.mem_append, List.mem_cons, List.not_mem_nil, or_false] at hp
    rcases hp with hp | rfl | rfl
    · exact answers_held.1 p hp
    · exact .single (.integer 0)
    · exact .multiple (by simp)
  · intro r a hr
    obtain ⟨id, v, h1, h2, h3⟩ := answers_held.2 r a hr
    refine ⟨id, v, h1, ?_, h3⟩
    rw [get_eq] at h2 ⊢
    unfold Dict.get itemSession
    unfold Dict.get at h2
    rw [List.find?_append]
    cases hf : List.find? (fun e => decide (e.1 = id)) answerSession.vars with
    | none => rw [hf] at h2; cases h2
    | some e => rw [hf] at h2; exact h2
  · intro r a id c b hr he
    have hid : id = r := by
      unfold answerEnv at he
      rw [hr] at he
      cases he
      rfl
    subst hid
    unfold sampleAnswers at hr
    by_cases h1 : id = ['T']
    · subst h1; decide
    · by_cases h2 : id = ['M']
      · subst h2; decide
      · by_cases h3 : id = ['O']
        · subst h3; decide
        · by_cases h4 : id = ['S']
          · subst h4; decide
          · simp [h1, h2, h3, h4] at hr

/-- The hypotheses are met, with a maximum of 6 points. -/
example : ∃ rules st' q, responseProcessing (fun _ => []) answerEnv itemOuts itemConditions
      [⟨['N'], .integer, none, some 6⟩] = .ok rules ∧ run itemSession rules = .ok st' ∧
    Clamped none (some 6) 7 q ∧ HoldsResults itemOuts [['N']] True st' ⟨fun _ => q, fun m => m = ['F']⟩ := by
  have d1 : Denotes .identifier ['B'] (.str ['B']) := .identifier (plain_letter 'B' (by decide) (by decide))
  have d2 : Denotes .string "zz".toList (.str "zz".toList) := .string (by decide)
  have t2 : IntegerText "2".toList 2 := (integer_read _ _).mp (by decide +kernel)
  have t5 : IntegerText "5".toList 5 := (integer_read _ _).mp (by decide +kernel)
  have sat1 : Sat sampleAnswers (.test (.varequal false) ['M'] none ['B']) :=
    ⟨_, .str ['B'], _, rfl, d1, by simp [selected], by simp [Passes]⟩
  have sat2 : ¬ Sat sampleAnswers (.test (.varequal true) ['T'] none "zz".toList) := by
    rintro ⟨a, x, y, h1, h2, h3, h4⟩
    cases h1
    have := denotes_unique d2 h2
    subst this
    simp [selected] at h3
    subst h3
    simp [Passes] at h4
  obtain ⟨rules, st', q, h1, h2, h3, h4⟩ := item_scores_partial (fun _ => []) answerEnv itemOuts [['N']]
    (fun _ => none) (fun _ => some 6) itemConditions sampleAnswers itemSession ⟨fun _ => 0, fun _ => False⟩
    ⟨fun m => if m = ['N'] then 7 else 0, fun m => m = ['F'] ∨ False⟩
    item_answers (by simp)
    ⟨by simp [itemOuts], fun _ n hn => by simp at hn; subst hn; decide⟩
    (by
      intro n _
      refine ⟨Or.inl rfl, ⟨by simp, fun h => absurd (Option.some.inj h) (by decide +kernel)⟩, by simp,
        fun h => (by cases h), fun _ q hq => ⟨6, ?_, by unfold Fits; omega⟩⟩
      rcases hq with hq | hq
      · cases hq
      · cases hq; rfl)
    (by
      intro c hc
      simp only [itemConditions, List.mem_cons, List.not_mem_nil, or_false] at hc
      rcases hc with rfl | rfl | rfl
      · exact ⟨by simp, ⟨⟨_, _, rfl, d1, Or.inr ⟨⟨Or.inr rfl, Or.inl rfl⟩, by simp, by simp⟩⟩, trivial⟩, ⟨trivial, trivial⟩,
          by simp +contextual, fun _ _ => itemFeedback⟩
      · exact ⟨by simp, ⟨⟨_, _, rfl, d2, Or.inl (Or.inl rfl)⟩, trivial⟩, ⟨trivial, trivial⟩,
          by simp +contextual, fun _ _ => itemFeedback⟩
      · exact ⟨by simp, ⟨trivial, trivial⟩, ⟨trivial, trivial⟩, by simp +contextual, fun _ _ => itemFeedback⟩)
    ⟨by
      intro n hn
      simp at hn
      subst hn
      exact ⟨by decide, _, by rfl, .integer 0, rfl⟩, fun _ => ⟨by decide, [], by decide, by simp⟩⟩
    (by
      refine .go ⟨sat1, trivial⟩ rfl (.setvar (.integer t2) ⟨by simp, by simp, fun _ => ⟨2, by decide +kernel, by unfold Fits; omega⟩⟩
        (.feedback (plain_letter 'F' (by decide) (by decide)) (.nil _))) (.skip (fun h => sat2 h.1)
        (.stop ⟨trivial, trivial⟩ rfl ?_))
      have : Performs (fun n => (itemOuts n).2) [.setvar ['N'] .add "5".toList]
          ⟨fun m => if m = ['N'] then 2 else 0, fun m => m = ['F'] ∨ False⟩
          ⟨fun m => if m = ['N'] then 7 else 0, fun m => m = ['F'] ∨ False⟩ := by
        refine .setvar (.integer t5) ⟨by simp, by simp, fun _ => ⟨7, by simp [actionResult]; decide +kernel, by unfold Fits; omega⟩⟩ ?_
        have e : (fun m : Str => if m = ['N'] then actionResult .add (if ['N'] = ['N'] then 2 else 0) ((5 : Int) : Rat)
            else if m = ['N'] then 2 else 0) = fun m => if m = ['N'] then 7 else 0 := by
          funext m
          by_cases h : m = ['N']
          · subst h; decide +kernel
          · simp [h]
        rw [e]
        exact .nil _
      have e : (fun m : Str => if m = ['N'] then actionResult .add 0 ((2 : Int) : Rat) else 0) =
          fun m => if m = ['N'] then 2 else 0 := by
        funext m
        by_cases h : m = ['N']
        · subst h; decide +kernel
        · simp [h]
      show Performs _ _ ⟨fun m : Str => if m = ['N'] then actionResult .add 0 ((2 : Int) : Rat) else 0, _⟩ _
      rw [e]
      exact this)
  refine ⟨rules, st', q ['N'], h1, h2, h3 ['N'] (by simp), ?_, ?_⟩
  · intro n hn
    simp at hn
    subst hn
    exact h4.value ['N'] (by simp)
  · intro _
    obtain ⟨a, as, b, c⟩ := h4.shown itemFeedback
    exact ⟨a, as, b, fun m => by rw [← c m]; simp⟩

/-- What it computes. -/
example : (responseProcessing (fun _ => []) answerEnv itemOuts itemConditions [⟨['N'], .integer, none, some 6⟩] >>=
    fun rules => run itemSession rules >>= fun st' => st'.get ['N']) =
    .ok (.single (some .integer) (some (.int 6))) := by
  decide +kernel

end Verif.Props
