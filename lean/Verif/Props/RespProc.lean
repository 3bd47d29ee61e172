import Verif.Spec.RespProc

/-! # C12: response conditions keep their order-and-stop meaning -/

set_option linter.unusedVariables false

namespace Verif.Props

open Verif Verif.RP Verif.Spec

variable {E A σ : Type} (test : E → σ → Bool) (act : A → σ → σ)

theorem runRules_append (rs ts : List (Rule E A)) (s : σ) :
    runRules test act (rs ++ ts) s = runRules test act ts (runRules test act rs s) := by
  induction rs generalizing s with
  | nil => simp [runRules]
  | cons r rs ih => simp [runRules, ih]

/-- Run a rule with its else-branch replaced by `k`. -/
def runBranches (bs : List (E × List A)) (k : σ → σ) (s : σ) : σ :=
  match firstBranch test bs s with
  | some as => performAll act as s
  | none => k s

/-- Well-formed pairs of rules and add point, with the meaning of the rules when `k` is performed at
the add point. -/
inductive At (k : σ → σ) : List (Rule E A) → Point → (σ → σ) → Prop
  | container0 (rs) : At k rs (.container 0) (fun s => k (runRules test act rs s))
  | condition0 (rs e as els) : At k (rs ++ [.cond e as els none]) (.condition 0)
      (fun s => runBranches test act ((e, as) :: els) k (runRules test act rs s))
  | containerS (rs e as els el d f) (h : At k el (.container d) f) :
      At k (rs ++ [.cond e as els (some el)]) (.container (d + 1))
        (fun s => runBranches test act ((e, as) :: els) f (runRules test act rs s))
  | conditionS (rs e as els el d f) (h : At k el (.condition d) f) :
      At k (rs ++ [.cond e as els (some el)]) (.condition (d + 1))
        (fun s => runBranches test act ((e, as) :: els) f (runRules test act rs s))

/-- Nothing more to do at the add point: the plain meaning of the rules. -/
theorem at_id {rs : List (Rule E A)} {p : Point} {f : σ → σ} (h : At test act (fun s => s) rs p f) (s : σ) :
    f s = runRules test act rs s := by
  induction h generalizing s with
  | container0 rs => rfl
  | condition0 rs e as els =>
    rw [runRules_append]
    simp [runRules, runRule, runBranches]
    cases firstBranch test ((e, as) :: els) (runRules test act rs s) <;> simp [runElse]
  | containerS rs e as els el d f h ih =>
    rw [runRules_append]
    simp [runRules, runRule, runBranches]
    cases firstBranch test ((e, as) :: els) (runRules test act rs s) <;> simp [runElse, ih]
  | conditionS rs e as els el d f h ih =>
    rw [runRules_append]
    simp [runRules, runRule, runBranches]
    cases firstBranch test ((e, as) :: els) (runRules test act rs s) <;> simp [runElse, ih]

theorem branches_ext {bs : List (E × List A)} {k k' : σ → σ} (h : ∀ s, k s = k' s) (s : σ) :
    runBranches test act bs k s = runBranches test act bs k' s := by
  unfold runBranches; split <;> simp [h]

theorem at_addRule {k : σ → σ} {k' : σ → σ} {e : E} {as : List A}
    (hk : ∀ s, k' s = k (runRule test act (.cond e as [] none) s))
    {rs : List (Rule E A)} {d : Nat} {p : Point} {f : σ → σ} (hp : p = .container d)
    (h : At test act k' rs p f) :
    ∃ g, At test act k (atDepth (· ++ [.cond e as [] none]) d rs) p g ∧ ∀ s, g s = f s := by
  induction h generalizing d with
  | container0 rs =>
    injection hp with hp
    subst hp
    refine ⟨_, .container0 _, ?_⟩
    intro s
    simp only [atDepth]
    rw [runRules_append, hk]
    simp [runRules]
  | condition0 rs e as els => cases hp
  | containerS rs e' as' els el d' f h ih =>
    injection hp with hp
    subst hp
    obtain ⟨g, hg, he⟩ := ih rfl
    simp only [atDepth, List.getLast?_concat, List.dropLast_concat]
    refine ⟨_, .containerS rs e' as' els _ d' g hg, ?_⟩
    intro s
    exact branches_ext test act he _
  | conditionS rs e as els el d f h ih => cases hp

/-- Adding the condition and moving the add point to it. -/
theorem at_addRule_move {k : σ → σ} {k' : σ → σ} {e : E} {as : List A}
    (hk : ∀ s, k' s = runBranches test act [(e, as)] k s)
    {rs : List (Rule E A)} {d : Nat} {p : Point} {f : σ → σ} (hp : p = .container d)
    (h : At test act k' rs p f) :
    ∃ g, At test act k (atDepth (· ++ [.cond e as [] none]) d rs) (.condition d) g ∧ ∀ s, g s = f s := by
  induction h generalizing d with
  | container0 rs =>
    injection hp with hp
    subst hp
    refine ⟨_, .condition0 _ _ _ _, ?_⟩
    intro s
    exact (hk _).symm
  | condition0 rs e as els => cases hp
  | containerS rs e' as' els el d' f h ih =>
    injection hp with hp
    subst hp
    obtain ⟨g, hg, he⟩ := ih rfl
    simp only [atDepth, List.getLast?_concat, List.dropLast_concat]
    refine ⟨_, .conditionS rs e' as' els _ d' g hg, ?_⟩
    intro s
    exact branches_ext test act he _
  | conditionS rs e as els el d f h ih => cases hp

theorem firstBranch_append (bs cs : List (E × List A)) (s : σ) :
    firstBranch test (bs ++ cs) s = (firstBranch test bs s).or (firstBranch test cs s) := by
  induction bs with
  | nil => simp [firstBranch]
  | cons b bs ih =>
    simp only [List.cons_append, firstBranch]
    split <;> simp [ih]

theorem at_addElseIf {k : σ → σ} {k' : σ → σ} {e : E} {as : List A}
    (hk : ∀ s, k' s = runBranches test act [(e, as)] k s)
    {rs : List (Rule E A)} {d : Nat} {p : Point} {f : σ → σ} (hp : p = .condition d)
    (h : At test act k' rs p f) :
    ∃ rs', addResponseElseIf rs (.condition d) (e, as) = .ok rs' ∧
      ∃ g, At test act k rs' p g ∧ ∀ s, g s = f s := by
  induction h generalizing d with
  | container0 rs => cases hp
  | condition0 rs e' as' els =>
    injection hp with hp
    subst hp
    refine ⟨_, rfl, ?_⟩
    simp only [atDepth, atLast, List.getLast?_concat, List.dropLast_concat]
    refine ⟨_, .condition0 _ _ _ _, ?_⟩
    intro s
    have : (e', as') :: (els ++ [(e, as)]) = ((e', as') :: els) ++ [(e, as)] := rfl
    simp only [runBranches, this, firstBranch_append]
    cases h1 : firstBranch test ((e', as') :: els) (runRules test act rs s) with
    | some a => simp
    | none => simp [hk, runBranches]
  | containerS rs e as els el d f h ih => cases hp
  | conditionS rs e' as' els el d' f h ih =>
    injection hp with hp
    subst hp
    obtain ⟨rs', hr, g, hg, he⟩ := ih rfl
    refine ⟨_, rfl, ?_⟩
    simp only [addResponseElseIf, Except.ok.injEq] at hr
    simp only [atDepth, List.getLast?_concat, List.dropLast_concat, hr]
    refine ⟨_, .conditionS rs e' as' els _ d' g hg, ?_⟩
    intro s
    exact branches_ext test act he _

theorem at_else {k : σ → σ}
    {rs : List (Rule E A)} {d : Nat} {p : Point} {f : σ → σ} (hp : p = .condition d)
    (h : At test act k rs p f) :
    ∃ rs', getResponseElse rs (.condition d) = .ok (rs', .container (d + 1)) ∧
      ∃ g, At test act k rs' (.container (d + 1)) g ∧ ∀ s, g s = f s := by
  induction h generalizing d with
  | container0 rs => cases hp
  | condition0 rs e' as' els =>
    injection hp with hp
    subst hp
    refine ⟨_, rfl, ?_⟩
    simp only [atDepth, atLast, List.getLast?_concat, List.dropLast_concat]
    refine ⟨_, .containerS _ _ _ _ _ _ _ (.container0 _), ?_⟩
    intro s
    simp [runRules]
  | containerS rs e as els el d f h ih => cases hp
  | conditionS rs e' as' els el d' f h ih =>
    injection hp with hp
    subst hp
    obtain ⟨rs', hr, g, hg, he⟩ := ih rfl
    refine ⟨_, rfl, ?_⟩
    simp only [getResponseElse, Except.ok.injEq, Prod.mk.injEq, and_true] at hr
    simp only [atDepth, List.getLast?_concat, List.dropLast_concat, hr]
    refine ⟨_, .containerS rs e' as' els _ _ g hg, ?_⟩
    intro s
    exact branches_ext test act he _

/-- The add point is a container exactly in continue mode. -/
def PointOK (mode : Bool) (p : Point) : Prop :=
  match mode with
  | true => ∃ d, p = .container d
  | false => ∃ d, p = .condition d

theorem build_spec (cs : List (E × List A × Bool)) (st : St E A) (f : σ → σ)
    (hp : PointOK st.continueMode st.point)
    (h : At test act (runConditions test act cs) st.rules st.point f) :
    ∃ st', addAllConds st cs = .ok st' ∧ ∀ s, runRules test act st'.rules s = f s := by
  induction cs generalizing st f with
  | nil =>
    refine ⟨st, rfl, fun s => ?_⟩
    have : runConditions test act [] = fun s : σ => s := by funext s; rfl
    rw [this] at h
    exact (at_id test act h s).symm
  | cons c cs ih =>
    obtain ⟨e, as, fl⟩ := c
    obtain ⟨rules, mode, point⟩ := st
    simp only at hp h
    have hcont : ∀ s, runConditions test act ((e, as, true) :: cs) s =
        runConditions test act cs (runRule test act (.cond e as [] none) s) := by
      intro s
      simp [runConditions, runRule, firstBranch]
      by_cases ht : test e s = true <;> simp [ht, runElse]
    have hstop : ∀ s, runConditions test act ((e, as, false) :: cs) s =
        runBranches test act [(e, as)] (runConditions test act cs) s := by
      intro s
      simp [runConditions, runBranches, firstBranch]
      by_cases ht : test e s = true <;> simp [ht]
    cases fl with
    | true =>
      cases mode with
      | true =>
        obtain ⟨d, hd⟩ := hp
        obtain ⟨g, hg, he⟩ := at_addRule test act hcont hd h
        obtain ⟨st', h1, h2⟩ := ih ⟨_, true, point⟩ g ⟨d, hd⟩ hg
        refine ⟨st', ?_, fun s => by rw [h2, he]⟩
        rw [← h1, hd]
        rfl
      | false =>
        obtain ⟨d, hd⟩ := hp
        obtain ⟨rs', hr, g0, hg0, he0⟩ := at_else test act hd h
        obtain ⟨g, hg, he⟩ := at_addRule test act hcont rfl hg0
        obtain ⟨st', h1, h2⟩ := ih ⟨_, true, .container (d + 1)⟩ g ⟨_, rfl⟩ hg
        refine ⟨st', ?_, fun s => by rw [h2, he, he0]⟩
        rw [← h1]
        simp only [addAllConds, addRespCondition, hd, hr]
        rfl
    | false =>
      cases mode with
      | true =>
        obtain ⟨d, hd⟩ := hp
        obtain ⟨g, hg, he⟩ := at_addRule_move test act hstop hd h
        obtain ⟨st', h1, h2⟩ := ih ⟨_, false, .condition d⟩ g ⟨_, rfl⟩ hg
        refine ⟨st', ?_, fun s => by rw [h2, he]⟩
        rw [← h1, hd]
        rfl
      | false =>
        obtain ⟨d, hd⟩ := hp
        obtain ⟨rs', hr, g, hg, he⟩ := at_addElseIf test act hstop hd h
        obtain ⟨st', h1, h2⟩ := ih ⟨rs', false, point⟩ g ⟨_, hd⟩ hg
        refine ⟨st', ?_, fun s => by rw [h2, he]⟩
        rw [← h1]
        simp only [addAllConds, addRespCondition, hd, hr]
        rfl

/-- **C12.** For every list of respconditions with any mix of continue flags, building the response
processing succeeds, and for every interpretation of expressions and actions and every state,
running the result equals running the original conditions in order and stopping after the first one
that holds and is not marked continue. -/
theorem response_conditions_meaning (cs : List (E × List A × Bool)) :
    ∃ st, addAllConds St.init cs = .ok st ∧
      ∀ (σ : Type) (test : E → σ → Bool) (act : A → σ → σ) (s : σ),
        runRules test act st.rules s = runConditions test act cs s := by
  have key : ∀ (σ : Type) (test : E → σ → Bool) (act : A → σ → σ),
      ∃ st, addAllConds St.init cs = .ok st ∧
        ∀ s, runRules test act st.rules s = runConditions test act cs s := by
    intro σ test act
    obtain ⟨st, h1, h2⟩ := build_spec test act cs St.init _ ⟨0, rfl⟩ (.container0 [])
    exact ⟨st, h1, fun s => by rw [h2]; simp [St.init, runRules]⟩
  obtain ⟨st, h, _⟩ := key Unit (fun _ _ => true) (fun _ s => s)
  refine ⟨st, h, fun σ test act s => ?_⟩
  obtain ⟨st', h', hr⟩ := key σ test act
  rw [h] at h'
  injection h' with h'
  subst h'
  exact hr s

/-- stop, stop, continue, stop, stop: `if 1 elif 2 else { if 3; if 4 elif 5 }`. -/
example : (addAllConds (E := Nat) (A := Nat) St.init
      [(1, [10], false), (2, [20], false), (3, [30], true), (4, [40], false), (5, [50], false)]) =
    .ok ⟨[.cond 1 [10] [(2, [20])] (some [.cond 3 [30] [] none, .cond 4 [40] [(5, [50])] none])],
      false, .condition 1⟩ := rfl

end Verif.Props
