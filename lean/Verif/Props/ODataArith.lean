import Verif.Lemmas.ODataSteps

/-!
# Numbers in OData expressions
-/

namespace Verif.Props

open Verif Verif.OData Verif.OData.Eval

/-- Exact arithmetic, except that odd integers between `2^53` and `2^54` are rounded as doubles are: an arithmetic with the
properties assumed. -/
def sampleEnv : Env where
  rnd := id
  dbl := fun q =>
    if q.den = 1 ∧ q.num % 2 = 1 ∧ 2 ^ 53 ≤ q.num ∧ q.num < 2 ^ 54 then .fin ((2 * (q.num / 2 + q.num / 2 % 2) : Int) : Rat)
    else .fin q
  lower := Py.lower
  upper := id
  space := fun c => c == ' '

/-- No entities. -/
def noEntities : World := fun _ => { set := 0, typeName := [], key := none, data := [], nav := [] }

theorem sample_faithful : Faithful sampleEnv where
  rnd_short := fun _ _ _ => rfl
  rnd_bound := fun _ h => h
  rnd_close := fun q => by
    show (q - q).abs * 10 ^ 27 ≤ q.abs
    have : q - q = 0 := by grind
    rw [this, Rat.abs_zero]
    have := Rat.abs_nonneg (x := q)
    grind
  dbl_int := fun n h => by
    show (if _ then _ else _) = _
    rw [if_neg]
    intro hc
    have : ((n : Rat)).num = n := rfl
    rw [this] at hc
    omega
  dbl_bound := fun q h h' => by
    simp only [sampleEnv]
    split
    · rename_i hc
      refine ⟨_, rfl, ?_, ?_⟩
      · have h1 : ((-2 ^ 100 : Int) : Rat) ≤ ((2 * (q.num / 2 + q.num / 2 % 2) : Int) : Rat) :=
          Rat.intCast_le_intCast.mpr (by omega)
        have h2 : ((-2 ^ 100 : Int) : Rat) = -2 ^ 100 := by decide +kernel
        rwa [h2] at h1
      · have h1 : ((2 * (q.num / 2 + q.num / 2 % 2) : Int) : Rat) ≤ ((2 ^ 100 : Int) : Rat) :=
          Rat.intCast_le_intCast.mpr (by omega)
        have h2 : ((2 ^ 100 : Int) : Rat) = 2 ^ 100 := by decide +kernel
        rwa [h2] at h1
    · exact ⟨q, rfl, h, h'⟩
  dbl_near := fun q f n hf hn => by
    replace hf : (if _ then _ else _) = Fl.fin f := hf
    split at hf
    · rename_i hc
      injection hf with hf
      subst hf
      have hq : q = (q.num : Rat) := by
        apply Rat.ext
        · rfl
        · exact hc.1
      generalize q.num = m at hc hq
      subst hq
      have e1 : ((2 * (m / 2 + m / 2 % 2) : Int) : Rat) - (m : Rat) = ((2 * (m / 2 + m / 2 % 2) - m : Int) : Rat) := by grind
      have e2 : (n : Rat) - (m : Rat) = ((n - m : Int) : Rat) := by grind
      rw [e1, e2]
      have key : ∀ a b : Int, -1 ≤ a → a ≤ 1 → b ≤ -1 → ((a : Int) : Rat).abs ≤ ((b : Int) : Rat).abs := by
        intro a b h1 h2 h3
        have h1' := Rat.intCast_le_intCast.mpr h1
        have h2' := Rat.intCast_le_intCast.mpr h2
        have h3' := Rat.intCast_le_intCast.mpr h3
        have i1 : ((1 : Int) : Rat) = 1 := rfl
        have i2 : ((-1 : Int) : Rat) = -1 := rfl
        rcases abs_cases (a : Rat) with ⟨_, hc⟩ | ⟨_, hc⟩ <;> rcases abs_cases (b : Rat) with ⟨_, hd⟩ | ⟨_, hd⟩ <;>
          rw [hc, hd] <;> grind
      exact key _ _ (by omega) (by omega) (by omega)
    · injection hf with hf
      subst hf
      have : q - q = 0 := by grind
      rw [this, Rat.abs_zero]
      exact Rat.abs_nonneg
  dbl_close := fun q f hf _ => by
    replace hf : (if _ then _ else _) = Fl.fin f := hf
    split at hf
    · rename_i hc
      injection hf with hf
      subst hf
      have hq : q = (q.num : Rat) := by
        apply Rat.ext
        · rfl
        · exact hc.1
      generalize q.num = m at hc hq
      subst hq
      have e1 : ((2 * (m / 2 + m / 2 % 2) : Int) : Rat) - (m : Rat) = ((2 * (m / 2 + m / 2 % 2) - m : Int) : Rat) := by grind
      rw [e1]
      have hm : ((2 ^ 53 : Int) : Rat) ≤ m := Rat.intCast_le_intCast.mpr hc.2.2.1
      have e2 : ((2 ^ 53 : Int) : Rat) = 2 ^ 53 := by decide +kernel
      rw [e2] at hm
      have key : ∀ a : Int, -1 ≤ a → a ≤ 1 → ((a : Int) : Rat).abs ≤ 1 := by
        intro a h1 h2
        have h1' := Rat.intCast_le_intCast.mpr h1
        have h2' := Rat.intCast_le_intCast.mpr h2
        have i1 : ((1 : Int) : Rat) = 1 := rfl
        have i2 : ((-1 : Int) : Rat) = -1 := rfl
        rcases abs_cases (a : Rat) with ⟨_, hc⟩ | ⟨_, hc⟩ <;> rw [hc] <;> grind
      have h1 := key (2 * (m / 2 + m / 2 % 2) - m) (by omega) (by omega)
      rw [Rat.abs_of_nonneg (x := (m : Rat)) (by grind)]
      grind
    · injection hf with hf
      subst hf
      have : q - q = 0 := by grind
      rw [this, Rat.abs_zero]
      have := Rat.abs_nonneg (x := q)
      grind
  dbl_even := fun k h1 h2 => by
    show (if _ then _ else _) = _
    have hn : (((2 * k + 1 : Int) : Rat)).num = 2 * k + 1 := rfl
    rw [if_pos ⟨rfl, by rw [hn]; omega, by rw [hn]; omega, by rw [hn]; omega⟩, hn]
    have : (2 * k + 1) / 2 = k := by omega
    rw [this]

/-! ## C144: the type of an operation -/

/-- `PromoteTypes` finds the common type, and raises `EvaluationError` where there is none. -/
theorem common_type (a b : Option Ty) :
    (∀ c, promoteTypes a b = .ok c ↔ Common a b c) ∧
      (promoteTypes a b = .error .evaluation ↔ ∀ c, ¬ Common a b c) ∧
      ∀ e, promoteTypes a b = .error e → e = .evaluation := by
  refine ⟨fun c => promote_ok, ⟨fun h => (promote_error h).2, fun h => ?_⟩, fun e h => (promote_error h).1⟩
  cases hp : promoteTypes a b with
  | error e => rw [(promote_error hp).1]
  | ok c => exact absurd (promote_ok.mp hp) (h c)

/-- Neither the order nor the grouping of the operands matters to the common type; null has no influence. -/
theorem common_type_laws (a b c : Option Ty) :
    promoteTypes a b = promoteTypes b a ∧
      ((promoteTypes a b).bind fun x => promoteTypes x c) = ((promoteTypes b c).bind fun x => promoteTypes a x) ∧
      promoteTypes a a = .ok a ∧ promoteTypes none a = .ok a := by
  refine ⟨?_, ?_, promote_ok.mpr (.same a), promote_ok.mpr (.null a)⟩
  · cases h : promoteTypes a b with
    | ok c => rw [promote_ok.mpr (promote_ok.mp h).symm]
    | error e =>
      obtain ⟨rfl, hn⟩ := promote_error h
      cases h' : promoteTypes b a with
      | ok c => exact absurd (promote_ok.mp h').symm (hn c)
      | error e => rw [(promote_error h').1]
  · have hassoc := assoc_table a (mem_tysNone a) b (mem_tysNone b) c (mem_tysNone c)
    have lift : ∀ (p q : Option (Option Ty)), p = q →
        (match p with | some t => (Except.ok t : Except Raise (Option Ty)) | none => .error .evaluation) =
          (match q with | some t => .ok t | none => .error .evaluation) := by
      intro p q h; rw [h]
    have := lift _ _ hassoc
    rw [promote_eq a b, promote_eq b c]
    cases h1 : common a b <;> cases h2 : common b c <;> rw [h1, h2] at this
    · rfl
    · rename_i x
      show (Except.error Raise.evaluation : Except Raise (Option Ty)) = promoteTypes a x
      rw [promote_eq]
      exact this
    · rename_i x
      show promoteTypes x c = _
      rw [promote_eq]
      exact this
    · rename_i x y
      show promoteTypes x c = promoteTypes a y
      rw [promote_eq, promote_eq]
      exact this

/-- A value that is promoted is not refused, stays null or not null, and stays the same number unless it becomes a
floating-point number. -/
theorem promotion_keeps {E : Env} (hE : Faithful E) {l : SVal} {w : Option Ty} {t : Ty} (hl : l.Fits)
    (hc : Common l.ty w (some t)) :
    ∃ v, l.cast E t = .ok v ∧ v.ty = some t ∧ v.isNull = l.isNull ∧ v.Fits ∧
      (t ≠ .single → t ≠ .double → v.number = l.number) := by
  obtain ⟨v, h1, h2, h3, h4, h5, h6⟩ := cast_up hE (common_up hc).1 hl
  refine ⟨v, h1, h2, h3, h4, fun hs hd => ?_⟩
  by_cases h : l.ty = some t
  · rw [h6 h]
  · exact h5 h hs hd

/-- A Byte and a Decimal: both become Decimals, whatever their order; a Byte and a String have nothing in common. -/
theorem common_type_example :
    Common (some .byte) (some .decimal) (some .decimal) ∧ promoteTypes (some .byte) (some .string) = .error .evaluation ∧
      (SVal.byte 200).Fits ∧ SVal.cast sampleEnv (.byte 200) .decimal = .ok (.decimal 200) := by
  refine ⟨.right rfl rfl (by decide), rfl, by simp only [SVal.Fits, range]; omega, by decide +kernel⟩

/-! ## C145: arithmetic with integers -/

/-- Sums, differences and products of integers are exact, or `ValueError` is raised. -/
theorem integers_partial {E : Env} {W : World} {ctx : Option Value} {x y : Expr} {l r : SVal} {a b c : Int} {t : Ty}
    {op : Oper} (hE : Faithful E) (hx : eval E W ctx x = .ok (.simple l)) (hy : eval E W ctx y = .ok (.simple r))
    (hl : l.Fits) (hr : r.Fits) (ha : l.int = some a) (hb : r.int = some b) (hc : Common l.ty r.ty (some t))
    (ht : t = .int32 ∨ t = .int64)
    (hop : op = .add ∧ c = a + b ∨ op = .sub ∧ c = a - b ∨ op = .mul ∧ c = a * b) :
    (range t c → eval E W ctx (.binary op [x, y]) = .ok (.simple (ofInt t c))) ∧
      (¬ range t c → eval E W ctx (.binary op [x, y]) = .error .value) := by
  have hmem : t ∈ arithTypes := by rcases ht with rfl | rfl <;> decide
  have hcl := cast_int hE hl ha (common_up hc).1 ht
  have hcr := cast_int hE hr hb (common_up hc).2 ht
  have hev : eval E W ctx (.binary op [x, y]) = (compute E op t (ofInt t a) (ofInt t b)).map .simple := by
    rcases hop with ⟨rfl, _⟩ | ⟨rfl, _⟩ | ⟨rfl, _⟩ <;> rw [eval_two hx hy (by decide) (by decide) (by decide)]
    · exact arithmetic_eq (op := .add) hc hmem hcl hcr
    · exact arithmetic_eq (op := .sub) hc hmem hcl hcr
    · exact arithmetic_eq (op := .mul) hc hmem hcl hcr
  have hci : intOp op a b = c := by
    rcases hop with ⟨rfl, h⟩ | ⟨rfl, h⟩ | ⟨rfl, h⟩ <;> rw [h] <;> rfl
  rw [hev]
  rcases ht with rfl | rfl
  · show (range _ c → (setInt32 (intOp op a b)).map _ = _) ∧ (¬ range _ c → (setInt32 (intOp op a b)).map _ = _)
    rw [hci]
    exact ⟨fun h => by rw [setInt32_ok h]; rfl, fun h => by rw [setInt32_error h]; rfl⟩
  · show (range _ c → (setInt64 (intOp op a b)).map _ = _) ∧ (¬ range _ c → (setInt64 (intOp op a b)).map _ = _)
    rw [hci]
    exact ⟨fun h => by rw [setInt64_ok h]; rfl, fun h => by rw [setInt64_error h]; rfl⟩

/-- The quotient of integers is cut towards zero, and the remainder goes with it, as long as the integers have at most 53
binary digits (all of type Int32 have); division by zero raises `EvaluationError`. -/
theorem division_partial {E : Env} {W : World} {ctx : Option Value} {x y : Expr} {l r : SVal} {a b : Int} {t : Ty}
    (hE : Faithful E) (hx : eval E W ctx x = .ok (.simple l)) (hy : eval E W ctx y = .ok (.simple r))
    (hl : l.Fits) (hr : r.Fits) (ha : l.int = some a) (hb : r.int = some b) (hc : Common l.ty r.ty (some t))
    (ht : t = .int32 ∨ t = .int64) (ha53 : a.natAbs < 2 ^ 53) (hb53 : b.natAbs < 2 ^ 53) :
    (b = 0 → eval E W ctx (.binary .div [x, y]) = .error .evaluation ∧
      eval E W ctx (.binary .mod [x, y]) = .error .evaluation) ∧
    (b ≠ 0 → (range t (a.tdiv b) → eval E W ctx (.binary .div [x, y]) = .ok (.simple (ofInt t (a.tdiv b)))) ∧
      (¬ range t (a.tdiv b) → eval E W ctx (.binary .div [x, y]) = .error .value) ∧
      (range t (a.tmod b) → eval E W ctx (.binary .mod [x, y]) = .ok (.simple (ofInt t (a.tmod b))))) := by
  have hmem : t ∈ arithTypes := by rcases ht with rfl | rfl <;> decide
  have hcl := cast_int hE hl ha (common_up hc).1 ht
  have hcr := cast_int hE hr hb (common_up hc).2 ht
  have hdiv : eval E W ctx (.binary .div [x, y]) = (computeDiv E t (ofInt t a) (ofInt t b)).map .simple := by
    rw [eval_two hx hy (by decide) (by decide) (by decide)]
    exact arithmetic_eq (op := .div) hc hmem hcl hcr
  have hmod : eval E W ctx (.binary .mod [x, y]) = (computeMod E t (ofInt t a) (ofInt t b)).map .simple := by
    rw [eval_two hx hy (by decide) (by decide) (by decide)]
    exact arithmetic_eq (op := .mod) hc hmem hcl hcr
  rw [hdiv, hmod]
  have hd := div_int hE ha53 hb53
  have hm := mod_int hE ha53 hb53
  constructor
  · intro h0
    have hd0 : (E.dbl a).div E (E.dbl b) = none := by
      rcases hd with h | h
      · exact h.1
      · exact absurd h0 h.1
    have hm0 : (E.dbl a).fmod (E.dbl b) = none := by
      rcases hm with h | h
      · exact h.1
      · exact absurd h0 h.1
    rcases ht with rfl | rfl <;>
      exact ⟨by simp only [ofInt, computeDiv, hd0]; rfl, by simp only [ofInt, computeMod, hm0]; rfl⟩
  · intro h0
    obtain ⟨u, hu, hui⟩ : ∃ u, (E.dbl a).div E (E.dbl b) = some u ∧ u.toInt = a.tdiv b := by
      rcases hd with h | h
      · exact absurd h.2 h0
      · exact h.2
    obtain ⟨v, hv, hvi⟩ : ∃ u, (E.dbl a).fmod (E.dbl b) = some u ∧ u.toInt = a.tmod b := by
      rcases hm with h | h
      · exact absurd h.2 h0
      · exact h.2
    rcases ht with rfl | rfl
    · simp only [ofInt, computeDiv, computeMod, hu, hv, hui, hvi]
      refine ⟨fun h => ?_, fun h => ?_, fun h => ?_⟩
      · rw [setInt32_ok h]; rfl
      · rw [setInt32_error h]; rfl
      · rw [setInt32_ok h]; rfl
    · simp only [ofInt, computeDiv, computeMod, hu, hv, hui, hvi]
      refine ⟨fun h => ?_, fun h => ?_, fun h => ?_⟩
      · rw [setInt64_ok h]; rfl
      · rw [setInt64_error h]; rfl
      · rw [setInt64_ok h]; rfl

/-- The remainder of integers of a type is of that type. -/
theorem remainder_range {t : Ty} {a b : Int} (ht : t = .int32 ∨ t = .int64) (ha : range t a) : range t (a.tmod b) := by
  have h1 : (a.tmod b).natAbs ≤ a.natAbs := by
    rw [Int.natAbs_tmod]
    exact Nat.mod_le _ _
  have h2 : 0 ≤ a → 0 ≤ a.tmod b := Int.tmod_nonneg b
  have h3 : a ≤ 0 → a.tmod b ≤ 0 := by
    intro h
    have := Int.tmod_nonneg b (a := -a) (by omega)
    rw [Int.neg_tmod] at this
    omega
  rcases ht with rfl | rfl <;> simp only [range] at ha ⊢ <;> omega

/-- The negative of an integer: small integers become `Int32`; the smallest integer of a type has none, and `ValueError` is
raised. -/
theorem negative_integer {E : Env} {W : World} {ctx : Option Value} {x : Expr} {l : SVal} {a : Int} {t : Ty}
    (hE : Faithful E) (hx : eval E W ctx x = .ok (.simple l)) (hl : l.Fits) (ha : l.int = some a)
    (hc : Common l.ty (some .int32) (some t)) :
    (range t (-a) → eval E W ctx (.unary .negate [x]) = .ok (.simple (ofInt t (-a)))) ∧
      (¬ range t (-a) → eval E W ctx (.unary .negate [x]) = .error .value) := by
  rw [eval_one hx]
  show (_ → negate E (.simple l) = _) ∧ (_ → negate E (.simple l) = _)
  have h32 : ∀ n : Int, (setInt32 (0 - n)).map Value.simple = (setInt32 (-n)).map Value.simple := by
    intro n; rw [show (0 - n : Int) = -n by omega]
  have h64 : ∀ n : Int, (setInt64 (0 - n)).map Value.simple = (setInt64 (-n)).map Value.simple := by
    intro n; rw [show (0 - n : Int) = -n by omega]
  have fin32 : ∀ z, negate E (.simple l) = z → z = (setInt32 (0 - a)).map Value.simple → t = .int32 →
      (range t (-a) → negate E (.simple l) = .ok (.simple (ofInt t (-a)))) ∧
      (¬ range t (-a) → negate E (.simple l) = .error .value) := by
    rintro z h1 h2 rfl
    rw [h1, h2, h32]
    exact ⟨fun h => by rw [setInt32_ok h]; rfl, fun h => by rw [setInt32_error h]; rfl⟩
  have ht : ∀ u, l.ty = some u → Common (some u) (some .int32) (some .int32) → t = .int32 := by
    intro u hu h
    rw [hu] at hc
    exact Option.some.inj (hc.unique h)
  cases l with
  | byte n =>
    cases ha
    refine fin32 _ rfl ?_ (ht _ rfl (.right rfl rfl (by decide)))
    have : SVal.cast E (.byte a) .int32 = .ok (.int32 a) :=
      cast_int hE hl rfl (.inr (.inr ⟨_, _, _, rfl, rfl, rfl, by decide⟩)) (.inl rfl)
    simp only [negate, SVal.ty, true_or, if_true, this]
    rfl
  | int16 n =>
    cases ha
    refine fin32 _ rfl ?_ (ht _ rfl (.right rfl rfl (by decide)))
    have : SVal.cast E (.int16 a) .int32 = .ok (.int32 a) :=
      cast_int hE hl rfl (.inr (.inr ⟨_, _, _, rfl, rfl, rfl, by decide⟩)) (.inl rfl)
    simp only [negate, SVal.ty, or_true, if_true, this]
    rfl
  | int32 n =>
    cases ha
    exact fin32 _ rfl rfl (ht _ rfl (.same _))
  | int64 n =>
    cases ha
    have : t = .int64 := Option.some.inj (hc.unique (.left rfl rfl (by decide)))
    subst this
    show (_ → (setInt64 (0 - a)).map Value.simple = _) ∧ (_ → (setInt64 (0 - a)).map Value.simple = _)
    rw [h64]
    exact ⟨fun h => by rw [setInt64_ok h]; rfl, fun h => by rw [setInt64_error h]; rfl⟩
  | null | bool | sbyte | decimal | double | single | string | binary | guid | dateTime | time | offset => cases ha

/-- `2000000000 add 2000000000` does not fit and is refused; as `Int64` it does; `-7 div 2` is `-3`, `-7 mod 2` is `-1`. -/
theorem integers_example :
    eval sampleEnv noEntities none (.binary .add [.lit (.int32 2000000000), .lit (.int32 2000000000)]) = .error .value ∧
      range .int64 4000000000 ∧ Common (some .int32) (some .int64) (some .int64) ∧
      eval sampleEnv noEntities none (.binary .add [.lit (.int32 2000000000), .lit (.int64 2000000000)]) =
        .ok (.simple (.int64 4000000000)) ∧
      ((-7 : Int).tdiv 2 = -3 ∧ (-7 : Int).tmod 2 = -1) := by
  have h1 := integers_partial (op := .add) (c := 4000000000) (W := noEntities) (ctx := none) (l := .int32 2000000000) (r := .int32 2000000000)
    (x := .lit (.int32 2000000000)) (y := .lit (.int32 2000000000)) (t := .int32) sample_faithful rfl rfl
    (by simp only [SVal.Fits, range]; omega) (by simp only [SVal.Fits, range]; omega) rfl rfl (.same _) (.inl rfl)
    (.inl ⟨rfl, rfl⟩)
  have h2 := integers_partial (op := .add) (c := 4000000000) (W := noEntities) (ctx := none) (l := .int32 2000000000) (r := .int64 2000000000)
    (x := .lit (.int32 2000000000)) (y := .lit (.int64 2000000000)) (t := .int64) sample_faithful rfl rfl
    (by simp only [SVal.Fits, range]; omega) (by simp only [SVal.Fits, range]; omega) rfl rfl (.right rfl rfl (by decide))
    (.inr rfl) (.inl ⟨rfl, rfl⟩)
  refine ⟨h1.2 (by simp only [range]; omega), by simp only [range]; omega, .right rfl rfl (by decide),
    h2.1 (by simp only [range]; omega), by decide, by decide⟩

/-- Integers of the types Byte and Int16 cannot be added, whatever they are. -/
theorem integers_refuted {E : Env} {W : World} (a b : Int) :
    eval E W (some (.complex [(['a'], .simple (.byte a)), (['b'], .simple (.byte b))]))
        (.binary .add [.prop ['a'], .prop ['b']]) = .error .evaluation ∧
      eval E W (some (.complex [(['a'], .simple (.int16 a)), (['b'], .simple (.byte b))]))
        (.binary .add [.prop ['a'], .prop ['b']]) = .error .evaluation :=
  ⟨rfl, rfl⟩

/-- Division of large integers is not exact: `9007199254740993L div 1L` is `9007199254740992L`, and
`9007199254740993L mod 2L` is `0L`. -/
theorem division_refuted {E : Env} {W : World} {ctx : Option Value} (hE : Faithful E) :
    eval E W ctx (.binary .div [.lit (.int64 9007199254740993), .lit (.int64 1)]) =
        .ok (.simple (.int64 9007199254740992)) ∧
      eval E W ctx (.binary .mod [.lit (.int64 9007199254740993), .lit (.int64 2)]) = .ok (.simple (.int64 0)) := by
  have hbig : E.dbl ((9007199254740993 : Int) : Rat) = .fin ((9007199254740992 : Int) : Rat) := by
    have := hE.dbl_even 4503599627370496 (by decide) (by decide)
    simpa using this
  have h1 : E.dbl ((1 : Int) : Rat) = .fin ((1 : Int) : Rat) := hE.dbl_int 1 (by decide)
  have h2 : E.dbl ((2 : Int) : Rat) = .fin ((2 : Int) : Rat) := hE.dbl_int 2 (by decide)
  have hq : E.dbl (((9007199254740992 : Int) : Rat) / ((1 : Int) : Rat)) = .fin ((9007199254740992 : Int) : Rat) := by
    have e : ((9007199254740992 : Int) : Rat) / ((1 : Int) : Rat) = ((9007199254740992 : Int) : Rat) := by decide +kernel
    rw [e]
    exact hE.dbl_int 9007199254740992 (by decide)
  constructor
  · rw [eval_two (l := .simple (.int64 9007199254740993)) (r := .simple (.int64 1)) (by rfl) (by rfl)
      (by decide) (by decide) (by decide)]
    show arithmetic E .div (.simple (.int64 9007199254740993)) (.simple (.int64 1)) = _
    rw [arithmetic_eq (t := .int64) (l' := .int64 9007199254740993) (r' := .int64 1) (.same _) (by decide) (by rfl) (by rfl)]
    show (computeDiv E .int64 (.int64 9007199254740993) (.int64 1)).map Value.simple = _
    simp only [computeDiv, hbig, h1, Fl.div]
    rw [if_neg (by decide +kernel)]
    simp only [hq, Fl.toInt, trunc_int]
    rw [setInt64_ok (by simp only [range]; omega)]
    rfl
  · rw [eval_two (l := .simple (.int64 9007199254740993)) (r := .simple (.int64 2)) (by rfl) (by rfl)
      (by decide) (by decide) (by decide)]
    show arithmetic E .mod (.simple (.int64 9007199254740993)) (.simple (.int64 2)) = _
    rw [arithmetic_eq (t := .int64) (l' := .int64 9007199254740993) (r' := .int64 2) (.same _) (by decide) (by rfl) (by rfl)]
    show (computeMod E .int64 (.int64 9007199254740993) (.int64 2)).map Value.simple = _
    simp only [computeMod, hbig, h2, Fl.fmod]
    rw [if_neg (by decide +kernel)]
    have e : Fl.toInt (.fin (((9007199254740992 : Int) : Rat) - ((2 : Int) : Rat) *
        (trunc (((9007199254740992 : Int) : Rat) / ((2 : Int) : Rat)) : Int))) = 0 := by decide +kernel
    simp only [e]
    rw [setInt64_ok (by simp only [range]; omega)]
    rfl

/-! ## C149: rounding -/

theorem floor_bounds (q : Rat) : ((q.floor : Int) : Rat) ≤ q ∧ q < (q.floor : Int) + 1 :=
  ⟨Rat.floor_le _, by have := Rat.lt_floor_add_one q; rwa [cast_add_one] at this⟩

theorem ceil_bounds (q : Rat) : ((q.ceil : Int) : Rat) - 1 < q ∧ q ≤ (q.ceil : Int) := by
  rw [Rat.ceil_eq_neg_floor_neg]
  have h := floor_bounds (-q)
  generalize (-q).floor = n at h
  have e : ((-n : Int) : Rat) = -(n : Rat) := by grind
  rw [e]
  grind

/-- The integer `round` makes of a Decimal. -/
theorem round_half_up (q : Rat) : NearestAway q (roundHalfUp q) := by
  rw [roundHalfUp, NearestAway]
  have hc : (1 / 2 : Rat) + 1 / 2 = 1 := by decide +kernel
  generalize (1 / 2 : Rat) = c at hc
  split
  · have h := floor_bounds (-q + c)
    generalize (-q + c).floor = n at h
    have e : ((-n : Int) : Rat) = -(n : Rat) := by grind
    rw [e]
    rcases abs_cases (-(n : Rat) - q) with ⟨_, h1⟩ | ⟨_, h1⟩ <;> rcases abs_cases q with ⟨_, h2⟩ | ⟨_, h2⟩ <;>
      rcases abs_cases (-(n : Rat)) with ⟨_, h3⟩ | ⟨_, h3⟩ <;> rw [h1, h2, h3] <;> grind
  · have h := floor_bounds (q + c)
    generalize (q + c).floor = n at h
    rcases abs_cases ((n : Rat) - q) with ⟨_, h1⟩ | ⟨_, h1⟩ <;> rcases abs_cases q with ⟨_, h2⟩ | ⟨_, h2⟩ <;>
      rcases abs_cases (n : Rat) with ⟨_, h3⟩ | ⟨_, h3⟩ <;> rw [h1, h2, h3] <;> grind

/-- The integer `round` makes of a float. -/
theorem round_half_even (q : Rat) : NearestEven q (roundHalfEven q) := by
  rw [roundHalfEven]
  have h := floor_bounds q
  generalize q.floor = n at h
  have e : ((n + 1 : Int) : Rat) = (n : Rat) + 1 := by grind
  have a1 := abs_cases ((n : Rat) - q)
  have a2 := abs_cases ((n : Rat) + 1 - q)
  split
  · rw [NearestEven]
    rcases a1 with ⟨_, h1⟩ | ⟨_, h1⟩ <;> rw [h1] <;> grind
  · split
    · rw [NearestEven, e]
      rcases a2 with ⟨_, h1⟩ | ⟨_, h1⟩ <;> rw [h1] <;> grind
    · split
      · rw [NearestEven]
        refine ⟨?_, fun _ => by assumption⟩
        rcases a1 with ⟨_, h1⟩ | ⟨_, h1⟩ <;> rw [h1] <;> grind
      · rw [NearestEven, e]
        refine ⟨?_, fun _ => by omega⟩
        rcases a2 with ⟨_, h1⟩ | ⟨_, h1⟩ <;> rw [h1] <;> grind

/-- There is only one integer that is nearest in either sense. -/
theorem nearest_unique (q : Rat) (m n : Int) :
    (NearestAway q m → NearestAway q n → m = n) ∧ (NearestEven q m → NearestEven q n → m = n) := by
  have dist : ∀ {m n : Int}, ((m : Rat) - q).abs ≤ 1 / 2 → ((n : Rat) - q).abs ≤ 1 / 2 → m < n →
      (n : Rat) = m + 1 ∧ ((m : Rat) - q).abs = 1 / 2 ∧ ((n : Rat) - q).abs = 1 / 2 := by
    intro m n h1 h2 h3
    have h4 : ((m + 1 : Int) : Rat) ≤ n := Rat.intCast_le_intCast.mpr (by omega)
    have e : ((m + 1 : Int) : Rat) = (m : Rat) + 1 := by grind
    rw [e] at h4
    rcases abs_cases ((m : Rat) - q) with ⟨_, h5⟩ | ⟨_, h5⟩ <;> rcases abs_cases ((n : Rat) - q) with ⟨_, h6⟩ | ⟨_, h6⟩ <;>
      rw [h5] at h1 ⊢ <;> rw [h6] at h2 ⊢ <;> grind
  have away : ∀ {m n : Int}, NearestAway q m → NearestAway q n → ¬ m < n := by
    intro m n h1 h2 h3
    obtain ⟨h4, h5, h6⟩ := dist h1.1 h2.1 h3
    have h7 := h1.2 h5
    have h8 := h2.2 h6
    have hc : (1 / 2 : Rat) + 1 / 2 = 1 := by decide +kernel
    generalize (1 / 2 : Rat) = c at hc h5 h6
    clear h1 h2 dist
    have h9 : (m : Rat) = q - c := by
      rcases abs_cases ((m : Rat) - q) with ⟨_, h9⟩ | ⟨_, h9⟩ <;> rw [h9] at h5 <;>
        rcases abs_cases ((n : Rat) - q) with ⟨_, h10⟩ | ⟨_, h10⟩ <;> rw [h10] at h6 <;> grind
    have h10 : ((-1 : Int) : Rat) < m ∧ (m : Rat) < ((0 : Int) : Rat) := by
      have e1 : ((-1 : Int) : Rat) = -1 := rfl
      have e2 : ((0 : Int) : Rat) = 0 := rfl
      rw [e1, e2]
      rcases abs_cases q with ⟨_, h10⟩ | ⟨_, h10⟩ <;> rw [h10] at h7 h8 <;>
        rcases abs_cases (m : Rat) with ⟨_, h11⟩ | ⟨_, h11⟩ <;> rw [h11] at h7 <;>
        rcases abs_cases (n : Rat) with ⟨_, h12⟩ | ⟨_, h12⟩ <;> rw [h12] at h8 <;> grind
    have := Rat.intCast_lt_intCast.mp h10.1
    have := Rat.intCast_lt_intCast.mp h10.2
    omega
  have even : ∀ {m n : Int}, NearestEven q m → NearestEven q n → ¬ m < n := by
    intro m n h1 h2 h3
    obtain ⟨h4, h5, h6⟩ := dist h1.1 h2.1 h3
    have h7 := h1.2 h5
    have h8 := h2.2 h6
    have e : ((m + 1 : Int) : Rat) = (m : Rat) + 1 := by grind
    rw [← e] at h4
    have := Rat.intCast_inj.mp h4
    omega
  constructor <;> intro h1 h2
  · have := away h1 h2
    have := away h2 h1
    omega
  · have := even h1 h2
    have := even h2 h1
    omega

/-- An integer between bounds of a Decimal can be stored. -/
theorem store_integer {E : Env} (hE : Faithful E) {n : Int} (h1 : -10 ^ 29 ≤ n) (h2 : n ≤ 10 ^ 29) :
    setDecimal E n = .ok (.decimal n) := by
  have e : ((10 ^ 29 : Int) : Rat) = 10 ^ 29 := by decide +kernel
  have h1' : ((-n : Int) : Rat) ≤ ((10 ^ 29 : Int) : Rat) := Rat.intCast_le_intCast.mpr (by omega)
  have h2' : (n : Rat) ≤ ((10 ^ 29 : Int) : Rat) := Rat.intCast_le_intCast.mpr h2
  have e2 : ((-n : Int) : Rat) = -(n : Rat) := by grind
  rw [e] at h1' h2'
  rw [e2] at h1'
  rw [Eval.setDecimal, if_neg]
  split
  · exact Rat.not_lt.mpr (hE.rnd_bound _ h1')
  · exact Rat.not_lt.mpr h2'

/-- `round`, `floor` and `ceiling` of a Decimal: the nearest integer (of two, the one away from zero), the largest below and
the smallest above. -/
theorem round_decimal {E : Env} {W : World} {ctx : Option Value} {x : Expr} {q : Rat} (hE : Faithful E)
    (hx : eval E W ctx x = .ok (.simple (.decimal q))) (h1 : -10 ^ 29 ≤ q) (h2 : q ≤ 10 ^ 29) :
    (∃ n : Int, eval E W ctx (.call .round [x]) = .ok (.simple (.decimal n)) ∧ NearestAway q n) ∧
      (∃ n : Int, eval E W ctx (.call .floor [x]) = .ok (.simple (.decimal n)) ∧ (n : Rat) ≤ q ∧ q < n + 1) ∧
      ∃ n : Int, eval E W ctx (.call .ceiling [x]) = .ok (.simple (.decimal n)) ∧ (n : Rat) - 1 < q ∧ q ≤ n := by
  have hcall : ∀ m, eval E W ctx (.call m [x]) = method E m [.simple (.decimal q)] := by
    intro m
    rw [eval, evalList, hx, evalList]
    rfl
  have hb : ((10 ^ 29 : Int) : Rat) = 10 ^ 29 := by decide +kernel
  have hb' : ((-10 ^ 29 : Int) : Rat) = -10 ^ 29 := by decide +kernel
  have inside : ∀ n : Int, ((n : Rat) - q).abs < 1 → -10 ^ 29 ≤ n ∧ n ≤ 10 ^ 29 := by
    intro n h
    have h3 : (n : Rat) < ((10 ^ 29 + 1 : Int) : Rat) := by
      have e : ((10 ^ 29 + 1 : Int) : Rat) = ((10 ^ 29 : Int) : Rat) + 1 := by decide +kernel
      rw [e, hb]
      rcases abs_cases ((n : Rat) - q) with ⟨_, h5⟩ | ⟨_, h5⟩ <;> rw [h5] at h <;> grind
    have h4 : ((-10 ^ 29 - 1 : Int) : Rat) < (n : Rat) := by
      have e : ((-10 ^ 29 - 1 : Int) : Rat) = ((-10 ^ 29 : Int) : Rat) - 1 := by decide +kernel
      rw [e, hb']
      rcases abs_cases ((n : Rat) - q) with ⟨_, h5⟩ | ⟨_, h5⟩ <;> rw [h5] at h <;> grind
    have := Rat.intCast_lt_intCast.mp h3
    have := Rat.intCast_lt_intCast.mp h4
    omega
  have step : ∀ m n, method E m [.simple (.decimal q)] = (setDecimal E (n : Int)).map .simple → ((n : Rat) - q).abs < 1 →
      eval E W ctx (.call m [x]) = .ok (.simple (.decimal n)) := by
    intro m n hm hn
    obtain ⟨h3, h4⟩ := inside n hn
    rw [hcall, hm, store_integer hE h3 h4]
    rfl
  have hr := round_half_up q
  have hf := floor_bounds q
  have hc := ceil_bounds q
  refine ⟨⟨roundHalfUp q, step _ _ rfl ?_, hr⟩, ⟨q.floor, step _ _ rfl ?_, hf⟩, ⟨q.ceil, step _ _ rfl ?_, hc⟩⟩
  · have := hr.1
    grind
  · generalize q.floor = n at hf
    rcases abs_cases ((n : Rat) - q) with ⟨_, h5⟩ | ⟨_, h5⟩ <;> rw [h5] <;> grind
  · generalize q.ceil = n at hc
    rcases abs_cases ((n : Rat) - q) with ⟨_, h5⟩ | ⟨_, h5⟩ <;> rw [h5] <;> grind

/-- The same for a Double or Single of at most 53 binary digits before the point: of two nearest integers `round` takes the
even one. -/
theorem round_float {E : Env} {W : World} {ctx : Option Value} {x : Expr} {q : Rat} (hE : Faithful E)
    (hx : eval E W ctx x = .ok (.simple (.double (.fin q))) ∨ eval E W ctx x = .ok (.simple (.single (.fin q))))
    (h1 : -2 ^ 53 ≤ q) (h2 : q ≤ 2 ^ 53) :
    (∃ n : Int, eval E W ctx (.call .round [x]) = .ok (.simple (.double (.fin n))) ∧ NearestEven q n) ∧
      (∃ n : Int, eval E W ctx (.call .floor [x]) = .ok (.simple (.double (.fin n))) ∧ (n : Rat) ≤ q ∧ q < n + 1) ∧
      ∃ n : Int, eval E W ctx (.call .ceiling [x]) = .ok (.simple (.double (.fin n))) ∧ (n : Rat) - 1 < q ∧ q ≤ n := by
  have hcall : ∀ m, m = .round ∨ m = .floor ∨ m = .ceiling →
      eval E W ctx (.call m [x]) = (setDouble (roundFloat E m (.fin q))).map .simple := by
    intro m hm
    rcases hx with hx | hx <;> rw [eval, evalList, hx, evalList] <;> rcases hm with rfl | rfl | rfl <;> rfl
  have hb : ((2 ^ 53 : Int) : Rat) = 2 ^ 53 := by decide +kernel
  have hb' : ((-2 ^ 53 : Int) : Rat) = -2 ^ 53 := by decide +kernel
  have inside : ∀ n : Int, ((n : Rat) - q).abs < 1 → n.natAbs ≤ 2 ^ 53 := by
    intro n h
    have h3 : (n : Rat) < ((2 ^ 53 + 1 : Int) : Rat) := by
      have e : ((2 ^ 53 + 1 : Int) : Rat) = ((2 ^ 53 : Int) : Rat) + 1 := by decide +kernel
      rw [e, hb]
      rcases abs_cases ((n : Rat) - q) with ⟨_, h5⟩ | ⟨_, h5⟩ <;> rw [h5] at h <;> grind
    have h4 : ((-2 ^ 53 - 1 : Int) : Rat) < (n : Rat) := by
      have e : ((-2 ^ 53 - 1 : Int) : Rat) = ((-2 ^ 53 : Int) : Rat) - 1 := by decide +kernel
      rw [e, hb']
      rcases abs_cases ((n : Rat) - q) with ⟨_, h5⟩ | ⟨_, h5⟩ <;> rw [h5] at h <;> grind
    have := Rat.intCast_lt_intCast.mp h3
    have := Rat.intCast_lt_intCast.mp h4
    omega
  have step : ∀ m n, m = .round ∨ m = .floor ∨ m = .ceiling → roundFloat E m (.fin q) = E.dbl (n : Int) →
      ((n : Rat) - q).abs < 1 → eval E W ctx (.call m [x]) = .ok (.simple (.double (.fin n))) := by
    intro m n hm hr hn
    rw [hcall m hm, hr, hE.dbl_int n (inside n hn)]
    rfl
  have hr := round_half_even q
  have hf := floor_bounds q
  have hc := ceil_bounds q
  refine ⟨⟨roundHalfEven q, step _ _ (.inl rfl) rfl ?_, hr⟩, ⟨q.floor, step _ _ (.inr (.inl rfl)) rfl ?_, hf⟩,
    ⟨q.ceil, step _ _ (.inr (.inr rfl)) rfl ?_, hc⟩⟩
  · have := hr.1
    grind
  · generalize q.floor = n at hf
    rcases abs_cases ((n : Rat) - q) with ⟨_, h5⟩ | ⟨_, h5⟩ <;> rw [h5] <;> grind
  · generalize q.ceil = n at hc
    rcases abs_cases ((n : Rat) - q) with ⟨_, h5⟩ | ⟨_, h5⟩ <;> rw [h5] <;> grind

/-- Integers of the types Int16, Int32 and Int64 are rounded to themselves, as Decimals. -/
theorem round_integer {E : Env} {W : World} {ctx : Option Value} {x : Expr} {l : SVal} {a : Int} {m : Meth}
    (hE : Faithful E) (hx : eval E W ctx x = .ok (.simple l)) (hl : l.Fits) (ha : l.int = some a) (hb : l.ty ≠ some .byte)
    (hm : m = .round ∨ m = .floor ∨ m = .ceiling) :
    eval E W ctx (.call m [x]) = .ok (.simple (.decimal a)) := by
  have hcall : eval E W ctx (.call m [x]) = rounded E m (.simple l) := by
    rw [eval, evalList, hx, evalList]
    rcases hm with rfl | rfl | rfl <;> rfl
  have hrange : range .int64 a ∧ promoteParameter E .decimal (.simple l) = setDecimal E a := by
    cases l <;> first | cases ha | skip
    · exact absurd rfl hb
    · exact ⟨by simp only [SVal.Fits, range] at hl ⊢; omega, rfl⟩
    · exact ⟨by simp only [SVal.Fits, range] at hl ⊢; omega, rfl⟩
    · exact ⟨hl, rfl⟩
  have h64 : -10 ^ 29 ≤ a ∧ a ≤ 10 ^ 29 := by
    have := hrange.1
    simp only [range] at this
    omega
  have hround : roundDecimal m (a : Rat) = ((a : Int) : Rat) := by
    rcases hm with rfl | rfl | rfl
    · show ((roundHalfUp a : Int) : Rat) = _
      have : NearestAway (a : Rat) a := by
        have e : (a : Rat) - a = 0 := by grind
        rw [NearestAway, e, Rat.abs_zero]
        exact ⟨by decide +kernel, fun h => absurd h (by decide +kernel)⟩
      rw [(nearest_unique _ _ _).1 (round_half_up (a : Rat)) this]
    · show (((a : Rat).floor : Int) : Rat) = _
      rw [Rat.floor_intCast]
    · show (((a : Rat).ceil : Int) : Rat) = _
      rw [Rat.ceil_intCast]
  rw [hcall, rounded, hrange.2, store_integer hE h64.1 h64.2]
  show (setDecimal E (roundDecimal m a)).map _ = _
  rw [hround, store_integer hE h64.1 h64.2]
  rfl

/-- `2.5` rounds to `3` as a Decimal and to `2` as a Double; `-2.5` to `-3`. -/
theorem round_example :
    NearestAway (5 / 2) 3 ∧ NearestEven (5 / 2) 2 ∧ NearestAway (-5 / 2) (-3) ∧
      eval sampleEnv noEntities none (.call .round [.lit (.decimal false 25 1)]) = .ok (.simple (.decimal 3)) ∧
      eval sampleEnv noEntities none (.lit (.decimal false 25 1)) = .ok (.simple (.decimal (5 / 2))) := by
  have h : eval sampleEnv noEntities none (.lit (.decimal false 25 1)) = .ok (.simple (.decimal (5 / 2))) := by
    have : decimalValue false 25 (-((1 : Nat) : Int)) = 5 / 2 := by decide +kernel
    show Except.ok (Value.simple (.decimal (decimalValue false 25 (-((1 : Nat) : Int))))) = _
    rw [this]
  obtain ⟨⟨n, h1, h2⟩, _⟩ := round_decimal sample_faithful h (by decide +kernel) (by decide +kernel)
  have h3 : NearestAway (5 / 2) 3 := ⟨by decide +kernel, fun _ => by decide +kernel⟩
  have := (nearest_unique _ _ _).1 h2 h3
  subst this
  exact ⟨h3, ⟨by decide +kernel, fun _ => by decide⟩, ⟨by decide +kernel, fun _ => by decide +kernel⟩, h1, h⟩

end Verif.Props
