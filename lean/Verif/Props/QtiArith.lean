import Verif.Props.QtiContainers

/-!
# Arithmetic of QTI expressions

Numbers are exact (floating point rounding is not modelled).
-/

namespace Verif.Props

open Verif Verif.Qti Verif.Spec

set_option linter.unusedVariables false

/-- The expression has a numeric value. -/
def Num (st : State) (e : Expr) (q : Rat) : Prop := ∃ v, eval st e = .ok v ∧ IsNumber v q

/-- The expression has an integer value. -/
def IntNum (st : State) (e : Expr) (i : Int) : Prop := eval st e = .ok (.single (some .integer) (some (.int i)))

/-- The expression has a float value. -/
def FloatNum (st : State) (e : Expr) (q : Rat) : Prop := eval st e = .ok (.single (some .float) (some (.num q)))

/-- The expression has a NULL value that may stand for a number. -/
def NullNum (st : State) (e : Expr) : Prop := ∃ v, eval st e = .ok v ∧ IsNullNumber v

/-- An integer or float value, or NULL that may stand for one. -/
def NumOrNull (v : Value) : Prop := (∃ q, IsNumber v q) ∨ IsNullNumber v

theorem isNumber_rat {v : Value} {q : Rat} (h : IsNumber v q) : v.rat? = some q := by
  cases h <;> rfl

theorem null_rat {v : Value} (h : IsNullNumber v) : v.rat? = none ∧ v.int? = none := by
  cases h <;> exact ⟨rfl, rfl⟩

theorem numOrNull_bt {v : Value} (h : NumOrNull v) : v.bt = none ∨ v.bt = some .integer ∨ v.bt = some .float := by
  rcases h with ⟨q, h⟩ | h <;> cases h <;> simp [Value.bt]

theorem numOrNull_card {v : Value} (h : NumOrNull v) : v.card = none ∨ v.card = some .single := by
  rcases h with ⟨q, h⟩ | h <;> cases h <;> simp [Value.card]

theorem numOrNull_rat {v : Value} (h : NumOrNull v) (hr : v.rat? = none) : IsNullNumber v := by
  rcases h with ⟨q, h⟩ | h
  · rw [isNumber_rat h] at hr; cases hr
  · exact h

/-- The base type found by `CheckNumericalTypes`. -/
theorem checkNumericalTypesFrom_ok : ∀ (bs : List (Option BaseType)) (b : Option BaseType),
    (∀ x ∈ bs, x = none ∨ x = some .integer ∨ x = some .float) →
    (b = none ∨ b = some .integer ∨ b = some .float) →
    checkNumericalTypesFrom b bs = .ok
      (if b = some .float ∨ some .float ∈ bs then some .float
       else if b = some .integer ∨ some .integer ∈ bs then some .integer else none)
  | [], b, _, hb => by
    rcases hb with hb | hb | hb <;> subst hb <;> rfl
  | x :: bs, b, h, hb => by
    have htl := fun y hy => h y (List.mem_cons_of_mem _ hy)
    have ih := fun b hb => checkNumericalTypesFrom_ok bs b htl hb
    rcases h x (List.mem_cons_self ..) with hx | hx | hx <;> subst hx
    · rw [checkNumericalTypesFrom, ih b hb]
      simp
    · rcases hb with hb | hb | hb <;> subst hb <;> simp [checkNumericalTypesFrom, ih]
    · rcases hb with hb | hb | hb <;> subst hb <;> simp [checkNumericalTypesFrom, ih]

theorem checkNumericalTypes_ok (bs : List (Option BaseType))
    (h : ∀ x ∈ bs, x = none ∨ x = some .integer ∨ x = some .float) :
    checkNumericalTypes bs = .ok
      (if some .float ∈ bs then some .float else if some .integer ∈ bs then some .integer else none) := by
  unfold checkNumericalTypes
  rw [checkNumericalTypesFrom_ok bs none h (Or.inl rfl)]
  simp

theorem checkSingle_ok (cs : List (Option Card)) (h : ∀ x ∈ cs, x = none ∨ x = some Card.single) :
    checkCardinalities (cs ++ [some .single]) = .ok (some .single) := by
  unfold checkCardinalities
  rw [checkCardinalitiesFrom_ok .single _ none ?_ (Or.inl rfl)]
  · simp
  · intro x hx
    rcases List.mem_append.mp hx with hx | hx
    · exact h x hx
    · right; simpa using hx

/-! ## Sums and products -/

/-- The operands of `sum` and `product` evaluated. -/
theorem fold_eval {st : State} {es : List Expr} {vs : List Value}
    (h : Pointwise (fun e v => eval st e = .ok v ∧ NumOrNull v) es vs) (hne : es ≠ [])
    (q0 : Rat) (qf : Rat → Rat → Rat) (i0 : Int) (f : Int → Int → Int) :
    evalAll st es = .ok vs ∧ fold q0 qf i0 f vs =
      (if some .float ∈ vs.map Value.bt then
        (match vs.mapM Value.rat? with
          | some qs => .ok (floatV (some (qs.foldl qf q0)))
          | none => .ok (floatV none))
       else if some .integer ∈ vs.map Value.bt then
        (match vs.mapM Value.int? with
          | some is => intV (some (is.foldl f i0))
          | none => intV none)
       else .ok (.single none none)) := by
  have h1 : Pointwise (fun e v => eval st e = .ok v) es vs := by
    clear hne
    induction h with
    | nil => exact .nil
    | cons h _ ih => exact .cons h.1 ih
  have h2 : ∀ v ∈ vs, NumOrNull v := by
    clear h1 hne
    induction h with
    | nil => intro v hv; cases hv
    | cons h _ ih =>
      intro v hv
      rcases List.mem_cons.mp hv with rfl | hv
      · exact h.2
      · exact ih v hv
  have h3 : vs ≠ [] := by
    cases h with
    | nil => exact absurd rfl hne
    | cons _ _ => simp
  refine ⟨(evalAll_ok st es vs).mpr h1, ?_⟩
  have hc := checkSingle_ok (vs.map Value.card) (by
    intro x hx
    obtain ⟨v, hv, rfl⟩ := List.mem_map.mp hx
    exact numOrNull_card (h2 v hv))
  have hb := checkNumericalTypes_ok (vs.map Value.bt) (by
    intro x hx
    obtain ⟨v, hv, rfl⟩ := List.mem_map.mp hx
    exact numOrNull_bt (h2 v hv))
  unfold fold
  rw [if_neg (by cases vs; exact absurd rfl h3; simp)]
  simp only [hc, hb, bind, Except.bind, pure, Except.pure]
  by_cases hf : some BaseType.float ∈ vs.map Value.bt
  · rw [if_pos hf, if_pos hf]
    dsimp only
    cases vs.mapM Value.rat? <;> rfl
  · rw [if_neg hf, if_neg hf]
    by_cases hi : some BaseType.integer ∈ vs.map Value.bt
    · rw [if_pos hi, if_pos hi]
      rfl
    · rw [if_neg hi, if_neg hi]

theorem ints_mapM : ∀ is : List Int,
    (is.map fun i => Value.single (some .integer) (some (.int i))).mapM Value.int? = some is
  | [] => rfl
  | i :: is => by
    rw [List.map_cons, List.mapM_cons, ints_mapM is]
    rfl

theorem ints_pointwise {st : State} {es : List Expr} {is : List Int} (h : Pointwise (IntNum st) es is) :
    Pointwise (fun e v => eval st e = .ok v ∧ NumOrNull v) es
      (is.map fun i => Value.single (some .integer) (some (.int i))) := by
  induction h with
  | nil => exact .nil
  | cons h _ ih => exact .cons ⟨h, Or.inl ⟨_, .integer _⟩⟩ ih

theorem fold_ints {st : State} {es : List Expr} {is : List Int} (h : Pointwise (IntNum st) es is) (hne : es ≠ [])
    (q0 : Rat) (qf : Rat → Rat → Rat) (i0 : Int) (f : Int → Int → Int) :
    evalAll st es = .ok (is.map fun i => Value.single (some .integer) (some (.int i))) ∧
    fold q0 qf i0 f (is.map fun i => Value.single (some .integer) (some (.int i))) = intV (some (is.foldl f i0)) := by
  obtain ⟨h1, h2⟩ := fold_eval (ints_pointwise h) hne q0 qf i0 f
  refine ⟨h1, ?_⟩
  rw [h2, if_neg, if_pos]
  · rw [ints_mapM]
  · cases h with
    | nil => exact absurd rfl hne
    | cons _ _ => exact List.mem_cons_self ..
  · intro hm
    rw [List.map_map] at hm
    obtain ⟨i, _, hi⟩ := List.mem_map.mp hm
    cases hi

theorem foldl_int_add : ∀ (is : List Int) (a : Int), is.foldl (· + ·) a = a + is.foldr (· + ·) 0
  | [], a => by simp
  | i :: is, a => by
    rw [List.foldl_cons, foldl_int_add is, List.foldr_cons, Int.add_assoc]

theorem foldl_int_mul : ∀ (is : List Int) (a : Int), is.foldl (· * ·) a = a * is.foldr (· * ·) 1
  | [], a => by simp
  | i :: is, a => by
    rw [List.foldl_cons, foldl_int_mul is, List.foldr_cons, Int.mul_assoc]

theorem foldl_rat_add : ∀ (is : List Rat) (a : Rat), is.foldl (· + ·) a = a + is.foldr (· + ·) 0
  | [], a => by simp [Rat.add_zero]
  | i :: is, a => by
    rw [List.foldl_cons, foldl_rat_add is, List.foldr_cons, Rat.add_assoc]

theorem foldl_rat_mul : ∀ (is : List Rat) (a : Rat), is.foldl (· * ·) a = a * is.foldr (· * ·) 1
  | [], a => by simp
  | i :: is, a => by
    rw [List.foldl_cons, foldl_rat_mul is, List.foldr_cons, Rat.mul_assoc]

theorem intV_cases (i : Int) :
    (Fits i → intV (some i) = .ok (.single (some .integer) (some (.int i)))) ∧
    (¬ Fits i → intV (some i) = .error .valueError) := by
  refine ⟨intV_fits, fun h => ?_⟩
  simp only [intV]
  rw [if_neg (fun hi => h ((int32_fits i).mp hi))]

/-- `sum` of integers: their sum, an integer; if it does not fit in 32 bits evaluation fails. -/
theorem sum_of_integers (st : State) (es : List Expr) (is : List Int) (hne : es ≠ [])
    (h : Pointwise (IntNum st) es is) :
    (Fits (is.foldr (· + ·) 0) → IntNum st (.node .sum es) (is.foldr (· + ·) 0)) ∧
    (¬ Fits (is.foldr (· + ·) 0) → eval st (.node .sum es) = .error .valueError) := by
  obtain ⟨h1, h2⟩ := fold_ints h hne 0 (· + ·) 0 (· + ·)
  have he : eval st (.node .sum es) = intV (some (is.foldr (· + ·) 0)) := by
    rw [eval_node st .sum es (by simp), h1]
    show applyOp .sum _ = _
    rw [applyOp, h2, foldl_int_add, Int.zero_add]
  have := intV_cases (is.foldr (· + ·) 0)
  unfold IntNum
  rw [he]
  exact this

/-- `product` of integers. -/
theorem product_of_integers (st : State) (es : List Expr) (is : List Int) (hne : es ≠ [])
    (h : Pointwise (IntNum st) es is) :
    (Fits (is.foldr (· * ·) 1) → IntNum st (.node .product es) (is.foldr (· * ·) 1)) ∧
    (¬ Fits (is.foldr (· * ·) 1) → eval st (.node .product es) = .error .valueError) := by
  obtain ⟨h1, h2⟩ := fold_ints h hne 1 (· * ·) 1 (· * ·)
  have he : eval st (.node .product es) = intV (some (is.foldr (· * ·) 1)) := by
    rw [eval_node st .product es (by simp), h1]
    show applyOp .product _ = _
    rw [applyOp, h2, foldl_int_mul, Int.one_mul]
  have := intV_cases (is.foldr (· * ·) 1)
  unfold IntNum
  rw [he]
  exact this

theorem nums_values {st : State} {es : List Expr} {qs : List Rat} (h : Pointwise (Num st) es qs) :
    ∃ vs, Pointwise (fun e v => eval st e = .ok v ∧ NumOrNull v) es vs ∧ vs.mapM Value.rat? = some qs := by
  induction h with
  | nil => exact ⟨[], .nil, rfl⟩
  | @cons e q es qs h _ ih =>
    obtain ⟨v, hv, hq⟩ := h
    obtain ⟨vs, h1, h2⟩ := ih
    refine ⟨v :: vs, .cons ⟨hv, Or.inl ⟨q, hq⟩⟩ h1, ?_⟩
    rw [List.mapM_cons, isNumber_rat hq, h2]
    rfl

theorem pointwise_find {st : State} {P : Expr → Value → Prop} {es : List Expr} {vs : List Value}
    (h : Pointwise P es vs) {e : Expr} (he : e ∈ es) : ∃ v ∈ vs, P e v := by
  induction h with
  | nil => cases he
  | cons h _ ih =>
    rcases List.mem_cons.mp he with rfl | he
    · exact ⟨_, List.mem_cons_self .., h⟩
    · obtain ⟨v, hv, hp⟩ := ih he
      exact ⟨v, List.mem_cons_of_mem _ hv, hp⟩

theorem fold_nums {st : State} {es : List Expr} {qs : List Rat} (h : Pointwise (Num st) es qs)
    {e : Expr} (he : e ∈ es) {q : Rat} (hf : FloatNum st e q)
    (q0 : Rat) (qf : Rat → Rat → Rat) (i0 : Int) (f : Int → Int → Int) :
    ∃ vs, evalAll st es = .ok vs ∧ fold q0 qf i0 f vs = .ok (floatV (some (qs.foldl qf q0))) := by
  obtain ⟨vs, h1, h2⟩ := nums_values h
  have hne : es ≠ [] := by intro h; subst h; cases he
  obtain ⟨h3, h4⟩ := fold_eval h1 hne q0 qf i0 f
  refine ⟨vs, h3, ?_⟩
  rw [h4, if_pos, h2]
  obtain ⟨v, hv, hev, _⟩ := pointwise_find (st := st) h1 he
  unfold FloatNum at hf
  rw [hev] at hf
  exact List.mem_map.mpr ⟨v, hv, by cases hf; rfl⟩

/-- `sum` of numbers one of which is a float: their sum, a float. -/
theorem sum_of_numbers (st : State) (es : List Expr) (qs : List Rat) (h : Pointwise (Num st) es qs)
    (e : Expr) (he : e ∈ es) (q : Rat) (hf : FloatNum st e q) :
    FloatNum st (.node .sum es) (qs.foldr (· + ·) 0) := by
  obtain ⟨vs, h1, h2⟩ := fold_nums h he hf 0 (· + ·) 0 (· + ·)
  unfold FloatNum
  rw [eval_node st .sum es (by simp), h1]
  show applyOp .sum _ = _
  rw [applyOp, h2, foldl_rat_add, Rat.zero_add]
  rfl

/-- `product` of numbers one of which is a float: their product, a float. -/
theorem product_of_numbers (st : State) (es : List Expr) (qs : List Rat) (h : Pointwise (Num st) es qs)
    (e : Expr) (he : e ∈ es) (q : Rat) (hf : FloatNum st e q) :
    FloatNum st (.node .product es) (qs.foldr (· * ·) 1) := by
  obtain ⟨vs, h1, h2⟩ := fold_nums h he hf 1 (· * ·) 1 (· * ·)
  unfold FloatNum
  rw [eval_node st .product es (by simp), h1]
  show applyOp .product _ = _
  rw [applyOp, h2, foldl_rat_mul, Rat.one_mul]
  rfl

theorem mapM_none {α β} {f : α → Option β} {l : List α} {a : α} (ha : a ∈ l) (hf : f a = none) : l.mapM f = none := by
  induction l with
  | nil => cases ha
  | cons b l ih =>
    rw [List.mapM_cons]
    rcases List.mem_cons.mp ha with rfl | ha
    · rw [hf]; rfl
    · rw [ih ha]
      cases f b <;> rfl

/-- `sum` and `product` are NULL when an operand is. -/
theorem null_operand_gives_null (st : State) (es : List Expr)
    (h : ∀ e ∈ es, (∃ q, Num st e q) ∨ NullNum st e) (e : Expr) (he : e ∈ es) (hn : NullNum st e) :
    (∃ v, eval st (.node .sum es) = .ok v ∧ IsNullNumber v) ∧
    ∃ v, eval st (.node .product es) = .ok v ∧ IsNullNumber v := by
  have hp : ∃ vs, Pointwise (fun e v => eval st e = .ok v ∧ NumOrNull v) es vs := by
    clear he
    induction es with
    | nil => exact ⟨[], .nil⟩
    | cons x es ih =>
      obtain ⟨vs, hvs⟩ := ih (fun y hy => h y (List.mem_cons_of_mem _ hy))
      rcases h x (List.mem_cons_self ..) with ⟨q, v, hv, hq⟩ | ⟨v, hv, hq⟩
      · exact ⟨v :: vs, .cons ⟨hv, Or.inl ⟨q, hq⟩⟩ hvs⟩
      · exact ⟨v :: vs, .cons ⟨hv, Or.inr hq⟩ hvs⟩
  obtain ⟨vs, hvs⟩ := hp
  have hne : es ≠ [] := by intro h; subst h; cases he
  obtain ⟨v, hv, hev, _⟩ := pointwise_find (st := st) hvs he
  obtain ⟨w, hw, hwn⟩ := hn
  rw [hev] at hw
  cases hw
  have hr := mapM_none hv (null_rat hwn).1
  have hi := mapM_none hv (null_rat hwn).2
  have key : ∀ (q0 : Rat) (qf : Rat → Rat → Rat) (i0 : Int) (f : Int → Int → Int),
      ∃ v, fold q0 qf i0 f vs = .ok v ∧ IsNullNumber v := by
    intro q0 qf i0 f
    rw [(fold_eval hvs hne q0 qf i0 f).2, hr, hi]
    split
    · exact ⟨_, rfl, .float⟩
    · split
      · exact ⟨_, rfl, .integer⟩
      · exact ⟨_, rfl, .untyped⟩
  have hall := (fold_eval hvs hne 0 (· + ·) 0 (· + ·)).1
  constructor
  · rw [eval_node st .sum es (by simp), hall]
    exact key 0 (· + ·) 0 (· + ·)
  · rw [eval_node st .product es (by simp), hall]
    exact key 1 (· * ·) 1 (· * ·)

/-! ## Binary operators -/

theorem twoNumeric_ok {v w : Value} (hv : NumOrNull v) (hw : NumOrNull w) :
    twoNumeric [v, w] = .ok (v, w, if some .float ∈ [v.bt, w.bt] then some .float
      else if some .integer ∈ [v.bt, w.bt] then some .integer else none) := by
  have h1 : checkCardinalities [v.card, w.card, some .single] = .ok (some .single) :=
    checkSingle_ok [v.card, w.card] (by
      intro x hx
      simp at hx
      rcases hx with rfl | rfl
      · exact numOrNull_card hv
      · exact numOrNull_card hw)
  have h2 := checkNumericalTypes_ok [v.bt, w.bt] (by
    intro x hx
    simp at hx
    rcases hx with rfl | rfl
    · exact numOrNull_bt hv
    · exact numOrNull_bt hw)
  simp only [twoNumeric, two, bind, Except.bind, h1, h2]
  rfl

/-- `subtract`: an integer when both operands are (failing when it does not fit), else a float. -/
theorem subtract_exact (st : State) (e f : Expr) :
    (∀ x y, IntNum st e x → IntNum st f y →
      (Fits (x - y) → IntNum st (.node .subtract [e, f]) (x - y)) ∧
      (¬ Fits (x - y) → eval st (.node .subtract [e, f]) = .error .valueError)) ∧
    (∀ x y, Num st e x → Num st f y → (FloatNum st e x ∨ FloatNum st f y) →
      FloatNum st (.node .subtract [e, f]) (x - y)) := by
  constructor
  · intro x y hx hy
    have he : eval st (.node .subtract [e, f]) = intV (some (x - y)) := by
      rw [eval_two (by simp) hx hy]
      simp only [applyOp, twoNumeric_ok (Or.inl ⟨_, .integer x⟩) (Or.inl ⟨_, .integer y⟩), bind, Except.bind]
      rfl
    unfold IntNum
    rw [he]
    exact intV_cases _
  · rintro x y ⟨v, hv, hvx⟩ ⟨w, hw, hwy⟩ hf
    unfold FloatNum
    rw [eval_two (by simp) hv hw]
    simp only [applyOp, twoNumeric_ok (Or.inl ⟨x, hvx⟩) (Or.inl ⟨y, hwy⟩), bind, Except.bind]
    rw [if_pos]
    · simp only [isNumber_rat hvx, isNumber_rat hwy]
      rfl
    · rcases hf with hf | hf
      · unfold FloatNum at hf
        rw [hv] at hf
        cases hf
        exact List.mem_cons_self ..
      · unfold FloatNum at hf
        rw [hw] at hf
        cases hf
        exact List.mem_cons_of_mem _ (List.mem_cons_self ..)

/-- `divide`: the quotient, a float; NULL when the divisor is zero. -/
theorem divide_exact (st : State) (e f : Expr) (x y : Rat) (hx : Num st e x) (hy : Num st f y) :
    (y ≠ 0 → FloatNum st (.node .divide [e, f]) (x / y)) ∧
    (y = 0 → eval st (.node .divide [e, f]) = .ok (floatV none)) := by
  obtain ⟨v, hv, hvx⟩ := hx
  obtain ⟨w, hw, hwy⟩ := hy
  unfold FloatNum
  rw [eval_two (by simp) hv hw]
  simp only [applyOp, twoNumeric_ok (Or.inl ⟨x, hvx⟩) (Or.inl ⟨y, hwy⟩), bind, Except.bind, isNumber_rat hvx,
    isNumber_rat hwy]
  constructor
  · intro hy
    rw [if_neg hy]
    rfl
  · intro hy
    rw [if_pos hy]
    rfl

theorem twoIntegers_ok (x y : Int) :
    twoIntegers [.single (some .integer) (some (.int x)), .single (some .integer) (some (.int y))] =
      .ok (.single (some .integer) (some (.int x)), .single (some .integer) (some (.int y))) := rfl

/-- `integerDivide` and `integerModulus`: quotient and remainder with the remainder between zero and the
divisor; NULL when the divisor is zero. -/
theorem integer_division (st : State) (e f : Expr) (x y : Int) (hx : IntNum st e x) (hy : IntNum st f y) :
    (y ≠ 0 → ∃ z m, z * y + m = x ∧ (0 ≤ m ∧ m < y ∨ y < m ∧ m ≤ 0) ∧
      (Fits z → IntNum st (.node .integerDivide [e, f]) z) ∧
      (Fits m → IntNum st (.node .integerModulus [e, f]) m)) ∧
    (y = 0 → eval st (.node .integerDivide [e, f]) = .ok (.single (some .integer) none) ∧
      eval st (.node .integerModulus [e, f]) = .ok (.single (some .integer) none)) := by
  unfold IntNum
  rw [eval_two (by simp) hx hy, eval_two (by simp) hx hy]
  simp only [applyOp, twoIntegers_ok, bind, Except.bind, Value.int?]
  constructor
  · intro hy0
    refine ⟨Int.fdiv x y, Int.fmod x y, ?_, ?_, ?_, ?_⟩
    · rw [Int.mul_comm]; exact Int.mul_fdiv_add_fmod x y
    · rcases Int.lt_or_gt_of_ne hy0 with hlt | hgt
      · right
        rw [Int.fmod_eq_emod]
        have h1 := Int.emod_nonneg x hy0
        have h2 := Int.emod_lt x hy0
        by_cases hd : y ∣ x
        · rw [if_pos (Or.inr hd), Int.emod_eq_zero_of_dvd hd]
          omega
        · rw [if_neg (fun h => h.elim (by omega) hd)]
          have : x % y ≠ 0 := fun h => hd (Int.dvd_of_emod_eq_zero h)
          omega
      · left
        exact ⟨Int.fmod_nonneg_of_pos x hgt, Int.fmod_lt_of_pos x hgt⟩
    · intro hf
      rw [if_neg hy0]
      exact intV_fits hf
    · intro hf
      rw [if_neg hy0]
      exact intV_fits hf
  · intro hy0
    rw [if_pos hy0, if_pos hy0]
    exact ⟨rfl, rfl⟩

/-! ## Rounding -/

/-- `round`: the nearest integer, halves upwards. -/
theorem round_nearest (st : State) (e : Expr) (q : Rat) (h : FloatNum st e q) :
    ∃ n : Int, (n : Rat) - 1 / 2 ≤ q ∧ q < (n : Rat) + 1 / 2 ∧
      (Fits n → IntNum st (.node .round [e]) n) ∧ (¬ Fits n → eval st (.node .round [e]) = .error .valueError) := by
  refine ⟨(q + 1 / 2).floor, ?_, ?_, ?_⟩
  · have := Rat.floor_le (q + 1 / 2)
    grind
  · have := Rat.lt_floor_add_one (q + 1 / 2)
    rw [Rat.intCast_add] at this
    grind
  · have he : eval st (.node .round [e]) = intV (some (q + 1 / 2).floor) := by
      rw [eval_one (by simp) h]
      rfl
    unfold IntNum
    rw [he]
    exact intV_cases _

/-- `truncate`: the integer next to the number on the side of zero. -/
theorem truncate_towards_zero (st : State) (e : Expr) (q : Rat) (h : FloatNum st e q) :
    ∃ n : Int, (0 ≤ q → (n : Rat) ≤ q ∧ q < (n : Rat) + 1) ∧ (q ≤ 0 → q ≤ (n : Rat) ∧ (n : Rat) - 1 < q) ∧
      (Fits n → IntNum st (.node .truncate [e]) n) ∧
      (¬ Fits n → eval st (.node .truncate [e]) = .error .valueError) := by
  refine ⟨truncRat q, ?_, ?_, ?_⟩
  · intro hq
    unfold truncRat
    rw [if_neg (by grind)]
    have h1 := Rat.floor_le q
    have h2 := Rat.lt_floor_add_one q
    rw [Rat.intCast_add] at h2
    exact ⟨h1, by grind⟩
  · intro hq
    unfold truncRat
    by_cases hlt : q < 0
    · rw [if_pos hlt]
      have h1 := Rat.floor_le (-q)
      have h2 := Rat.lt_floor_add_one (-q)
      rw [Rat.intCast_add] at h2
      rw [Rat.intCast_neg]
      constructor <;> grind
    · have hq0 : q = 0 := by grind
      subst hq0
      rw [if_neg hlt]
      have : (0 : Rat).floor = 0 := by decide +kernel
      rw [this]
      constructor <;> decide +kernel
  · have he : eval st (.node .truncate [e]) = intV (some (truncRat q)) := by
      rw [eval_one (by simp) h]
      rfl
    unfold IntNum
    rw [he]
    exact intV_cases _

/-- `integerToFloat` keeps the number. -/
theorem integerToFloat_keeps (st : State) (e : Expr) (i : Int) (h : IntNum st e i) :
    FloatNum st (.node .integerToFloat [e]) i := by
  unfold FloatNum
  rw [eval_one (by simp) h]
  rfl

/-! ## Comparison -/

theorem compare_eval (st : State) (op : Op) (f : Rat → Rat → Bool) (hop : op ≠ .custom)
    (hap : ∀ vs, applyOp op vs = twoNumeric vs >>= fun p => .ok (compareNum f p.1 p.2.1))
    (e e' : Expr) (x y : Rat) (hx : Num st e x) (hy : Num st e' y) :
    eval st (.node op [e, e']) = .ok (boolV (some (f x y))) := by
  obtain ⟨v, hv, hvx⟩ := hx
  obtain ⟨w, hw, hwy⟩ := hy
  rw [eval_two hop hv hw, hap, twoNumeric_ok (Or.inl ⟨x, hvx⟩) (Or.inl ⟨y, hwy⟩)]
  simp only [bind, Except.bind, compareNum, isNumber_rat hvx, isNumber_rat hwy]

/-- `lt`, `lte`, `gt` and `gte` compare numbers, whether integers or floats. -/
theorem comparisons (st : State) (e f : Expr) (x y : Rat) (hx : Num st e x) (hy : Num st f y) :
    (∃ b, eval st (.node .lt [e, f]) = .ok (boolV (some b)) ∧ (b = true ↔ x < y)) ∧
    (∃ b, eval st (.node .lte [e, f]) = .ok (boolV (some b)) ∧ (b = true ↔ x ≤ y)) ∧
    (∃ b, eval st (.node .gt [e, f]) = .ok (boolV (some b)) ∧ (b = true ↔ y < x)) ∧
    (∃ b, eval st (.node .gte [e, f]) = .ok (boolV (some b)) ∧ (b = true ↔ y ≤ x)) := by
  refine ⟨⟨_, compare_eval st .lt (fun x y => x < y) (by simp) (fun _ => rfl) e f x y hx hy, by simp⟩,
    ⟨_, compare_eval st .lte (fun x y => x ≤ y) (by simp) (fun _ => rfl) e f x y hx hy, by simp⟩,
    ⟨_, compare_eval st .gt (fun x y => x > y) (by simp) (fun _ => rfl) e f x y hx hy, ?_⟩,
    ⟨_, compare_eval st .gte (fun x y => x ≥ y) (by simp) (fun _ => rfl) e f x y hx hy, ?_⟩⟩
  · simp
  · simp

/-- A comparison is NULL when an operand is. -/
theorem comparison_null (st : State) (e f : Expr) (v w : Value) (he : eval st e = .ok v) (hf : eval st f = .ok w)
    (hv : NumOrNull v) (hw : NumOrNull w) (hn : IsNullNumber v ∨ IsNullNumber w) (op : Op)
    (hop : op = .lt ∨ op = .lte ∨ op = .gt ∨ op = .gte) :
    eval st (.node op [e, f]) = .ok (boolV none) := by
  have key : ∀ f : Rat → Rat → Bool, compareNum f v w = boolV none := by
    intro f
    unfold compareNum
    rcases hn with hn | hn
    · rw [(null_rat hn).1]
    · rw [(null_rat hn).1]
      cases v.rat? <;> rfl
  have hop' : op ≠ .custom := by rcases hop with h | h | h | h <;> simp [h]
  rw [eval_two hop' he hf]
  rcases hop with h | h | h | h <;> subst h <;>
    simp only [applyOp, twoNumeric_ok hv hw, bind, Except.bind, key] <;> rfl

/-- `equal` with mode `exact`. -/
theorem equal_exact (st : State) (e f : Expr) (x y : Rat) (hx : Num st e x) (hy : Num st f y) (tol : List Str)
    (il iu : Bool) :
    ∃ b, eval st (.node (.equal .exact tol il iu) [e, f]) = .ok (boolV (some b)) ∧ (b = true ↔ x = y) := by
  obtain ⟨v, hv, hvx⟩ := hx
  obtain ⟨w, hw, hwy⟩ := hy
  refine ⟨decide (x = y), ?_, by simp⟩
  rw [eval_two (by simp) hv hw]
  simp only [applyOp, twoNumeric_ok (Or.inl ⟨x, hvx⟩) (Or.inl ⟨y, hwy⟩), bind, Except.bind, isNumber_rat hvx,
    isNumber_rat hwy]
  rfl

/-- `equal` with tolerances `t0` and `t1`: the second number lies between the bounds around the first; the
bounds belong to the interval as the attributes say. -/
theorem equal_within (st : State) (e f : Expr) (x y t0 t1 : Rat) (hx : Num st e x) (hy : Num st f y) (s0 s1 : Str)
    (h0 : floatAttr (some s0) = .ok t0) (h1 : floatAttr (some s1) = .ok t1) (il iu : Bool) :
    (∃ b, eval st (.node (.equal .absolute [s0, s1] il iu) [e, f]) = .ok (boolV (some b)) ∧
      (b = true ↔ (if il then x - t0 ≤ y else x - t0 < y) ∧ (if iu then y ≤ x + t1 else y < x + t1))) ∧
    (∃ b, eval st (.node (.equal .relative [s0, s1] il iu) [e, f]) = .ok (boolV (some b)) ∧
      (b = true ↔ (if il then x * (1 - t0 / 100) ≤ y else x * (1 - t0 / 100) < y) ∧
        (if iu then y ≤ x * (1 + t1 / 100) else y < x * (1 + t1 / 100)))) := by
  obtain ⟨v, hv, hvx⟩ := hx
  obtain ⟨w, hw, hwy⟩ := hy
  rw [eval_two (by simp) hv hw, eval_two (by simp) hv hw]
  simp only [applyOp, twoNumeric_ok (Or.inl ⟨x, hvx⟩) (Or.inl ⟨y, hwy⟩), bind, Except.bind, isNumber_rat hvx,
    isNumber_rat hwy, equalTest, h0, h1]
  constructor
  · refine ⟨_, rfl, ?_⟩
    cases il <;> cases iu <;> simp
  · refine ⟨_, rfl, ?_⟩
    cases il <;> cases iu <;> simp

/-! ## Random numbers -/

/-- `randomInteger` with a positive step: whatever is drawn, an integer between the limits, a whole number
of steps from the lower one. -/
theorem random_integer_in_range (st : State) (smin smax sstep : Str) (min max step : Int) (draw : Nat)
    (h1 : integerAttr (some smin) = .ok min) (h2 : integerAttr (some smax) = .ok max)
    (h3 : integerAttr (some sstep) = .ok step) (hstep : 0 < step) (hle : min ≤ max) (hmin : Fits min)
    (hmax : Fits max) :
    ∃ n, IntNum st (.leaf (.randomInteger (some smin) (some smax) (some sstep) draw)) n ∧ min ≤ n ∧ n ≤ max ∧
      step ∣ n - min := by
  have hk : 0 ≤ Int.fdiv (max - min) step := by
    rw [Int.fdiv_eq_ediv_of_nonneg _ (by omega)]
    exact Int.ediv_nonneg (by omega) (by omega)
  have hle2 : step * Int.fdiv (max - min) step ≤ max - min := by
    rw [Int.fdiv_eq_ediv_of_nonneg _ (by omega)]
    have := Int.mul_ediv_add_emod (max - min) step
    have := Int.emod_nonneg (max - min) (by omega : step ≠ 0)
    omega
  generalize hK : Int.fdiv (max - min) step = k at hk hle2
  have hr : ((draw % (k.toNat + 1) : Nat) : Int) ≤ k := by
    have := Nat.mod_lt draw (by omega : 0 < k.toNat + 1)
    omega
  have hr0 : (0 : Int) ≤ ((draw % (k.toNat + 1) : Nat) : Int) := Int.natCast_nonneg _
  generalize hR : ((draw % (k.toNat + 1) : Nat) : Int) = r at hr hr0
  have hmul : step * r ≤ step * k := Int.mul_le_mul_of_nonneg_left hr (by omega)
  have hmul0 : 0 ≤ step * r := Int.mul_nonneg (by omega) hr0
  refine ⟨min + step * r, ?_, by omega, by omega, ⟨r, by omega⟩⟩
  unfold IntNum
  rw [eval]
  simp only [evalLeaf, h1, h2, h3, bind, Except.bind]
  rw [if_neg (by omega)]
  simp only [randint, hK]
  rw [if_neg (by omega), hR]
  exact intV_fits (by unfold Fits at *; omega)

/-- `randomFloat`: between the limits, if the generator yields numbers from 0 up to, not including, 1. -/
theorem random_float_in_range (st : State) (smin smax : Str) (min max draw : Rat)
    (h1 : floatAttr (some smin) = .ok min) (h2 : floatAttr (some smax) = .ok max)
    (hd0 : 0 ≤ draw) (hd1 : draw < 1) (hlt : min < max) :
    ∃ q, FloatNum st (.leaf (.randomFloat (some smin) (some smax) draw)) q ∧ min ≤ q ∧ q < max := by
  refine ⟨min + draw * (max - min), ?_, ?_, ?_⟩
  · unfold FloatNum
    rw [eval]
    simp only [evalLeaf, h1, h2, bind, Except.bind]
    rfl
  · have := Rat.mul_nonneg hd0 (by grind : 0 ≤ max - min)
    grind
  · have := Rat.mul_lt_mul_of_pos_right hd1 (by grind : 0 < max - min)
    grind

/-! ## The hypotheses are met -/

/-- A session with an integer and a float. -/
def numberSession : State :=
  ⟨[(['I'], .single (some .integer) (some (.int 7))), (['F'], .single (some .float) (some (.num (5 / 2)))),
    (['N'], .single (some .integer) none)], []⟩

example : Pointwise (Num numberSession) [.leaf (.variable ['I']), .leaf (.variable ['F'])] [((7 : Int) : Rat), 5 / 2] ∧
    FloatNum numberSession (.leaf (.variable ['F'])) (5 / 2) ∧
    IntNum numberSession (.leaf (.variable ['I'])) 7 ∧
    NullNum numberSession (.leaf (.variable ['N'])) ∧
    integerAttr (some ['-', '3']) = .ok (-3) ∧ floatAttr (some ['0', '.', '5']) = .ok (1 / 2) :=
  ⟨.cons ⟨_, rfl, .integer 7⟩ (.cons ⟨_, rfl, .float _⟩ .nil), rfl, rfl, ⟨_, rfl, .integer⟩, by decide +kernel,
    by decide +kernel⟩

example : IntNum numberSession (.node .integerDivide [.leaf (.baseValue .integer ['-', '7']),
      .leaf (.baseValue .integer ['2'])]) (-4) ∧
    IntNum numberSession (.node .round [.leaf (.baseValue .float ['-', '6', '.', '5'])]) (-6) ∧
    IntNum numberSession (.node .truncate [.leaf (.baseValue .float ['-', '6', '.', '5'])]) (-6) := by
  unfold IntNum
  refine ⟨by decide +kernel, by decide +kernel, by decide +kernel⟩

end Verif.Props
