import Verif.Lemmas.Qti

/-!
# Logical operators of QTI expressions

`and`, `or`, `not` and `anyN` give the result that every way of filling in the NULL operands would give,
and NULL when it depends on how they are filled in.
-/

namespace Verif.Props

open Verif Verif.Qti Verif.Spec

set_option linter.unusedVariables false

/-! ## Completions -/

theorem completion_mem {ts : List (Option Bool)} {bs : List Bool} (h : Pointwise MayBe ts bs) {b : Bool}
    (hb : some b ∈ ts) : b ∈ bs := by
  induction h with
  | nil => cases hb
  | @cons t c ts bs hm _ ih =>
    rcases List.mem_cons.mp hb with h | h
    · subst h
      rcases hm with h | h
      · cases h
      · cases h
        exact List.mem_cons_self ..
    · exact List.mem_cons_of_mem _ (ih h)

theorem completion_fill (d : Bool) : ∀ ts : List (Option Bool), Pointwise MayBe ts (ts.map (·.getD d))
  | [] => .nil
  | t :: ts => .cons (by cases t <;> simp [MayBe]) (completion_fill d ts)

theorem completion_count {ts : List (Option Bool)} {bs : List Bool} (h : Pointwise MayBe ts bs) :
    ts.count (some true) ≤ bs.count true ∧ bs.count true ≤ ts.count (some true) + ts.count none := by
  induction h with
  | nil => simp
  | @cons t b ts bs hm _ ih =>
    rcases hm with h | h <;> subst h <;> cases b <;> simp <;> omega

theorem completion_exists : ∀ (ts : List (Option Bool)) (k : Nat), k ≤ ts.count none →
    ∃ bs, Pointwise MayBe ts bs ∧ bs.count true = ts.count (some true) + k
  | [], k, hk => ⟨[], .nil, by simp at hk; simp [hk]⟩
  | none :: ts, 0, hk => by
    obtain ⟨bs, h1, h2⟩ := completion_exists ts 0 (Nat.zero_le _)
    exact ⟨false :: bs, .cons (Or.inl rfl) h1, by simpa using h2⟩
  | none :: ts, k + 1, hk => by
    obtain ⟨bs, h1, h2⟩ := completion_exists ts k (by simpa using hk)
    exact ⟨true :: bs, .cons (Or.inl rfl) h1, by simp [h2]; omega⟩
  | some true :: ts, k, hk => by
    obtain ⟨bs, h1, h2⟩ := completion_exists ts k (by simpa using hk)
    exact ⟨true :: bs, .cons (Or.inr rfl) h1, by simp [h2]; omega⟩
  | some false :: ts, k, hk => by
    obtain ⟨bs, h1, h2⟩ := completion_exists ts k (by simpa using hk)
    exact ⟨false :: bs, .cons (Or.inr rfl) h1, by simp [h2]⟩

/-! ## The loops -/

theorem andLoop_eq (r : Option Bool) (hr : r ≠ some false) : ∀ ts : List (Option Bool),
    andLoop r ts = if some false ∈ ts then some false else if none ∈ ts then none else r
  | [] => by simp [andLoop]
  | some false :: ts => by simp [andLoop]
  | none :: ts => by
    rw [andLoop, andLoop_eq none (by simp) ts]
    by_cases h : some false ∈ ts <;> simp [h]
  | some true :: ts => by
    rw [andLoop, andLoop_eq r hr ts]
    by_cases h : some false ∈ ts <;> by_cases h' : none ∈ ts <;> simp [h, h']

theorem orLoop_eq (r : Option Bool) (hr : r ≠ some true) : ∀ ts : List (Option Bool),
    orLoop r ts = if some true ∈ ts then some true else if none ∈ ts then none else r
  | [] => by simp [orLoop]
  | some true :: ts => by simp [orLoop]
  | none :: ts => by
    rw [orLoop, orLoop_eq none (by simp) ts]
    by_cases h : some true ∈ ts <;> simp [h]
  | some false :: ts => by
    rw [orLoop, orLoop_eq r hr ts]
    by_cases h : some true ∈ ts <;> by_cases h' : none ∈ ts <;> simp [h, h']

theorem completion_all {ts : List (Option Bool)} {bs : List Bool} (h : Pointwise MayBe ts bs) {b : Bool}
    (hn : none ∉ ts) (hb : some (!b) ∉ ts) : ∀ c ∈ bs, c = b := by
  induction h with
  | nil => intro c hc; cases hc
  | @cons t c ts bs hm _ ih =>
    intro d hd
    rcases List.mem_cons.mp hd with h | h
    · subst h
      rcases hm with h | h
      · subst h; exact absurd (List.mem_cons_self ..) hn
      · subst h
        cases d <;> cases b <;> first | rfl | exact absurd (List.mem_cons_self ..) hb
    · exact ih (fun h => hn (List.mem_cons_of_mem _ h)) (fun h => hb (List.mem_cons_of_mem _ h)) d h

theorem and_known (ts : List (Option Bool)) : KnownResult (fun bs => bs.all id) ts (andLoop (some true) ts) := by
  rw [andLoop_eq _ (by simp)]
  by_cases h : some false ∈ ts
  · rw [if_pos h]
    intro bs hbs
    have := completion_mem hbs h
    exact List.all_eq_false.mpr ⟨false, this, by simp⟩
  · rw [if_neg h]
    by_cases hn : none ∈ ts
    · rw [if_pos hn]
      refine ⟨⟨_, completion_fill true ts, ?_⟩, ⟨_, completion_fill false ts, ?_⟩⟩
      · rw [List.all_eq_true]
        intro b hb
        rcases List.mem_map.mp hb with ⟨t, ht, rfl⟩
        cases t with
        | none => rfl
        | some b => cases b
                    · exact absurd ht h
                    · rfl
      · rw [List.all_eq_false]
        exact ⟨false, List.mem_map.mpr ⟨none, hn, rfl⟩, by simp⟩
    · rw [if_neg hn]
      intro bs hbs
      rw [List.all_eq_true]
      intro b hb
      exact completion_all hbs hn (b := true) h b hb

theorem or_known (ts : List (Option Bool)) : KnownResult (fun bs => bs.any id) ts (orLoop (some false) ts) := by
  rw [orLoop_eq _ (by simp)]
  by_cases h : some true ∈ ts
  · rw [if_pos h]
    intro bs hbs
    have := completion_mem hbs h
    exact List.any_eq_true.mpr ⟨true, this, by simp⟩
  · rw [if_neg h]
    by_cases hn : none ∈ ts
    · rw [if_pos hn]
      refine ⟨⟨_, completion_fill true ts, ?_⟩, ⟨_, completion_fill false ts, ?_⟩⟩
      · rw [List.any_eq_true]
        exact ⟨true, List.mem_map.mpr ⟨none, hn, rfl⟩, by simp⟩
      · rw [List.any_eq_false]
        intro b hb
        rcases List.mem_map.mp hb with ⟨t, ht, rfl⟩
        cases t with
        | none => simp
        | some b => cases b
                    · simp
                    · exact absurd ht h
    · rw [if_neg hn]
      intro bs hbs
      rw [List.any_eq_false]
      intro b hb
      rw [completion_all hbs hn (b := false) h b hb]
      simp

theorem anyN_known (min max : Int) (hmm : min ≤ max) (ts : List (Option Bool)) :
    KnownResult (fun bs => decide (min ≤ bs.count true ∧ (bs.count true : Int) ≤ max)) ts
      (anyNResult min max ts) := by
  unfold anyNResult
  have hlow := completion_exists ts 0 (Nat.zero_le _)
  have hhigh := completion_exists ts (ts.count none) (Nat.le_refl _)
  dsimp only
  by_cases h1 : (ts.count (some true) : Int) ≥ min
  · rw [if_pos h1]
    by_cases h2 : (ts.count (some true) : Int) > max
    · rw [if_pos h2]
      intro bs hbs
      have := completion_count hbs
      exact decide_eq_false (by omega)
    · rw [if_neg h2]
      by_cases h3 : (ts.count (some true) : Int) + ts.count none > max
      · rw [if_pos h3]
        obtain ⟨bs, hb1, hb2⟩ := hlow
        obtain ⟨cs, hc1, hc2⟩ := hhigh
        exact ⟨⟨bs, hb1, decide_eq_true (by omega)⟩, ⟨cs, hc1, decide_eq_false (by omega)⟩⟩
      · rw [if_neg h3]
        intro bs hbs
        have := completion_count hbs
        exact decide_eq_true (by omega)
  · rw [if_neg h1]
    by_cases h3 : (ts.count (some true) : Int) + ts.count none ≥ min
    · rw [if_pos h3]
      obtain ⟨bs, hb1, hb2⟩ := hlow
      obtain ⟨cs, hc1, hc2⟩ := completion_exists ts (min - ts.count (some true)).toNat (by omega)
      exact ⟨⟨cs, hc1, decide_eq_true (by omega)⟩, ⟨bs, hb1, decide_eq_false (by omega)⟩⟩
    · rw [if_neg h3]
      intro bs hbs
      have := completion_count hbs
      exact decide_eq_false (by omega)

/-! ## Truth values as QTI values -/

theorem isTruth_bool {v : Value} {t : Option Bool} (h : IsTruth v t) : v.bool? = t := by
  cases h <;> rfl

theorem isTruth_card {v : Value} {t : Option Bool} (h : IsTruth v t) : v.card = none ∨ v.card = some .single := by
  cases h <;> simp [Value.card]

theorem isTruth_bt {v : Value} {t : Option Bool} (h : IsTruth v t) : v.bt = none ∨ v.bt = some .boolean := by
  cases h <;> simp [Value.bt]

theorem boolV_isTruth (t : Option Bool) : IsTruth (boolV t) t := by
  cases t with
  | none => exact .null
  | some b => exact .bool b

theorem truths_bool {vs : List Value} {ts : List (Option Bool)} (h : Pointwise IsTruth vs ts) :
    vs.map Value.bool? = ts := by
  induction h with
  | nil => rfl
  | cons h _ ih => rw [List.map_cons, isTruth_bool h, ih]

theorem truths_mem {vs : List Value} {ts : List (Option Bool)} (h : Pointwise IsTruth vs ts) :
    ∀ v ∈ vs, ∃ t, IsTruth v t := by
  induction h with
  | nil => intro v hv; cases hv
  | @cons v t vs ts h _ ih =>
    intro w hw
    rcases List.mem_cons.mp hw with rfl | hw
    · exact ⟨t, h⟩
    · exact ih w hw

theorem truths_allSingle {vs : List Value} {ts : List (Option Bool)} (h : Pointwise IsTruth vs ts) :
    allSingle .boolean vs = .ok () :=
  allSingle_ok .boolean vs (fun v hv => let ⟨_, ht⟩ := truths_mem h v hv; isTruth_card ht)
    (fun v hv => let ⟨_, ht⟩ := truths_mem h v hv; isTruth_bt ht)

/-- The sub-expressions evaluate to truth values. -/
def Truths (st : State) (es : List Expr) (ts : List (Option Bool)) : Prop :=
  Pointwise (fun e t => ∃ v, eval st e = .ok v ∧ IsTruth v t) es ts

theorem truths_evalAll {st : State} {es : List Expr} {ts : List (Option Bool)} (h : Truths st es ts) :
    ∃ vs, evalAll st es = .ok vs ∧ Pointwise IsTruth vs ts := by
  induction h with
  | nil => exact ⟨[], rfl, .nil⟩
  | @cons e t es ts he _ ih =>
    obtain ⟨v, hv, ht⟩ := he
    obtain ⟨vs, hvs, hts⟩ := ih
    refine ⟨v :: vs, ?_, .cons ht hts⟩
    rw [evalAll, hv, hvs]
    rfl

/-! ## The theorems -/

/-- `and` of any number of truth values. -/
theorem and_three_valued (st : State) (es : List Expr) (ts : List (Option Bool)) (h : Truths st es ts) :
    ∃ r, eval st (.node .and es) = .ok (boolV r) ∧ KnownResult (fun bs => bs.all id) ts r := by
  obtain ⟨vs, hvs, hts⟩ := truths_evalAll h
  refine ⟨_, ?_, and_known ts⟩
  simp only [eval, hvs, bind, Except.bind, applyOp, truths_allSingle hts, truths_bool hts]
  rfl

/-- `or` of any number of truth values. -/
theorem or_three_valued (st : State) (es : List Expr) (ts : List (Option Bool)) (h : Truths st es ts) :
    ∃ r, eval st (.node .or es) = .ok (boolV r) ∧ KnownResult (fun bs => bs.any id) ts r := by
  obtain ⟨vs, hvs, hts⟩ := truths_evalAll h
  refine ⟨_, ?_, or_known ts⟩
  simp only [eval, hvs, bind, Except.bind, applyOp, truths_allSingle hts, truths_bool hts]
  rfl

/-- `not` of a truth value. -/
theorem not_three_valued (st : State) (e : Expr) (t : Option Bool) (h : Truths st [e] [t]) :
    eval st (.node .not [e]) = .ok (boolV (t.map (!·))) := by
  obtain ⟨vs, hvs, hts⟩ := truths_evalAll h
  cases hts with
  | @cons v t vs ts hv hn =>
    cases hn
    simp only [eval, hvs, bind, Except.bind, applyOp, one, isTruth_bool hv]
    cases hv <;> rfl

/-- `anyN` of any number of truth values, when the limits are numbers and `min` is not above `max`. -/
theorem anyN_three_valued_partial (st : State) (es : List Expr) (ts : List (Option Bool)) (h : Truths st es ts)
    (smin smax : Str) (min max : Int) (hmin : integerAttr (some smin) = .ok min)
    (hmax : integerAttr (some smax) = .ok max) (hmm : min ≤ max) :
    ∃ r, eval st (.node (.anyN (some smin) (some smax)) es) = .ok (boolV r) ∧
      KnownResult (fun bs => decide (min ≤ bs.count true ∧ (bs.count true : Int) ≤ max)) ts r := by
  obtain ⟨vs, hvs, hts⟩ := truths_evalAll h
  refine ⟨_, ?_, anyN_known min max hmm ts⟩
  simp only [eval, hvs, bind, Except.bind, applyOp, truths_allSingle hts, truths_bool hts, hmin, hmax]
  rfl

/-- With `min` above `max` nothing can satisfy `anyN`, yet it is reported as unknown when operands are
NULL. -/
theorem anyN_crossed_limits (st : State) :
    ¬ ∃ r, eval st (.node (.anyN (some ['2']) (some ['1'])) [.leaf .null, .leaf .null]) = .ok (boolV r) ∧
      KnownResult (fun bs => decide ((2 : Int) ≤ bs.count true ∧ (bs.count true : Int) ≤ 1)) [none, none] r := by
  rintro ⟨r, h1, h2⟩
  have : eval st (.node (.anyN (some ['2']) (some ['1'])) [.leaf .null, .leaf .null]) = .ok (boolV none) := by
    have hm : integerAttr (some ['2']) = .ok 2 := by decide +kernel
    have hx : integerAttr (some ['1']) = .ok 1 := by decide +kernel
    simp only [eval, evalAll, evalLeaf, bind, Except.bind, applyOp, hm, hx]
    decide +kernel
  rw [this] at h1
  have hr : r = none := by
    cases r with
    | none => rfl
    | some b => cases h1
  subst hr
  obtain ⟨⟨bs, _, h⟩, _⟩ := h2
  have := of_decide_eq_true h
  omega

/-- The hypotheses are met: a NULL and a true operand. -/
example (st : State) : Truths st [.leaf .null, .leaf (.baseValue .boolean ['t', 'r', 'u', 'e'])] [none, some true] :=
  .cons ⟨_, rfl, .unknown⟩ (.cons ⟨_, rfl, .bool true⟩ .nil)

/-- `and` of them is unknown, `or` of them true. -/
example (st : State) :
    eval st (.node .and [.leaf .null, .leaf (.baseValue .boolean ['1'])]) = .ok (boolV none) ∧
    eval st (.node .or [.leaf .null, .leaf (.baseValue .boolean ['1'])]) = .ok (boolV (some true)) ∧
    integerAttr (some ['1']) = .ok 1 ∧ integerAttr (some ['+', '2']) = .ok 2 := by
  refine ⟨rfl, rfl, by decide +kernel, by decide +kernel⟩

/-- Template references in the limits are never usable: whatever the variable, evaluation fails. -/
theorem template_reference_unusable (name : Str) :
    integerAttr (some ('{' :: name ++ ['}'])) = .error .attributeError ∧
    floatAttr (some ('{' :: name ++ ['}'])) = .error .attributeError := by
  have : checkTemplateRef (some ('{' :: name ++ ['}'])) = .error .attributeError := by
    simp only [checkTemplateRef]
    rw [if_pos ⟨rfl, by rw [List.getLast?_append]; rfl⟩]
  constructor
  · rw [integerAttr, this]; rfl
  · rw [floatAttr, this]; rfl

end Verif.Props
