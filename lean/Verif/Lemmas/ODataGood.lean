import Verif.Lemmas.ODataOrder

/-!
# Results that fit, and the errors of operators and methods on simple values
-/

namespace Verif.OData.Eval

open Verif

/-- The errors of operators and methods. -/
def Known (e : Raise) : Prop := e = .evaluation ∨ e = .value ∨ e = .invalidOperation

def GoodS : Except Raise SVal → Prop
  | .ok s => s.Fits
  | .error e => Known e

def Good : Except Raise Value → Prop
  | .ok v => ∃ s, v = .simple s ∧ s.Fits
  | .error e => Known e

theorem GoodS.map {z : Except Raise SVal} (h : GoodS z) : Good (z.map .simple) := by
  cases z with
  | ok s => exact ⟨s, rfl, h⟩
  | error e => exact h

theorem GoodS.bind {z : Except Raise SVal} {f : SVal → Except Raise Value} (h : GoodS z) (hf : ∀ s, s.Fits → Good (f s)) :
    Good (z >>= f) := by
  cases z with
  | ok s => exact hf s h
  | error e => exact h

theorem good_eval : GoodS (.error .evaluation) := .inl rfl
theorem good_evalV : Good (.error .evaluation) := .inl rfl
theorem good_null {o : Option Ty} : GoodS (.ok (.null o)) := trivial
theorem good_nullV {o : Option Ty} : Good (.ok (.simple (.null o))) := ⟨_, rfl, trivial⟩
theorem good_boolV {b : Bool} : Good (.ok (.simple (.bool b))) := ⟨_, rfl, trivial⟩

theorem good_int32 (n : Int) : GoodS (setInt32 n) := by
  by_cases h : range .int32 n
  · rw [setInt32_ok h]; exact h
  · rw [setInt32_error h]; exact .inr (.inl rfl)

theorem good_int64 (n : Int) : GoodS (setInt64 n) := by
  by_cases h : range .int64 n
  · rw [setInt64_ok h]; exact h
  · rw [setInt64_error h]; exact .inr (.inl rfl)

theorem good_decimal {E : Env} (hE : Faithful E) (q : Rat) : GoodS (setDecimal E q) := by
  rw [setDecimal]
  by_cases h : (if q < 0 then E.rnd (-q) else q) > 10 ^ 29
  · rw [if_pos h]
    exact .inr (.inl rfl)
  · rw [if_neg h]
    have big : (10 : Rat) ^ 29 * 2 ≤ 2 ^ 100 := by decide +kernel
    have b29 : (0 : Rat) ≤ 10 ^ 29 := by decide +kernel
    show -2 ^ 100 ≤ q ∧ q ≤ 2 ^ 100
    split at h
    · rename_i hq
      have hc := hE.rnd_close (-q)
      replace h := Rat.not_lt.mp h
      rw [Rat.abs_of_nonneg (x := -q) (by grind)] at hc
      generalize E.rnd (-q) = z at h hc
      have e27 : (10 : Rat) ^ 27 = 2 * (10 ^ 27 / 2) := by decide +kernel
      have hz : -q ≤ z * 2 := by
        have h27 : (2 : Rat) ≤ 10 ^ 27 := by decide +kernel
        have hn := Rat.abs_nonneg (x := z - -q)
        have h2 : (z - -q).abs * 2 ≤ (z - -q).abs * 10 ^ 27 := Rat.mul_le_mul_of_nonneg_left h27 hn
        rcases abs_cases (z - -q) with ⟨_, ha⟩ | ⟨_, ha⟩ <;> rw [ha] at h2 hc <;> grind
      have h3 : -q ≤ 2 ^ 100 := by
        generalize (10 : Rat) ^ 29 = A at *
        generalize (2 : Rat) ^ 100 = B at *
        grind
      have h4 : (0 : Rat) ≤ 2 ^ 100 := by decide +kernel
      exact ⟨by grind, by grind⟩
    · replace h := Rat.not_lt.mp h
      have h4 : (10 : Rat) ^ 29 ≤ 2 ^ 100 := by decide +kernel
      have h5 : (0 : Rat) ≤ 2 ^ 100 := by decide +kernel
      exact ⟨by grind, Rat.le_trans h h4⟩

theorem good_single (x : Fl) : GoodS (setSingle x) := by
  cases x with
  | nan => exact trivial
  | inf => exact trivial
  | fin q =>
    rw [setSingle]
    split
    · exact .inr (.inl rfl)
    · rename_i h
      rw [singleMax_eq] at h
      show -(2 - 1 / 2 ^ 23) * 2 ^ 127 ≤ q ∧ q ≤ (2 - 1 / 2 ^ 23) * 2 ^ 127
      have e : (-(2 - 1 / 2 ^ 23) * 2 ^ 127 : Rat) = -((2 - 1 / 2 ^ 23) * 2 ^ 127) := by decide +kernel
      rw [e]
      exact ⟨Rat.not_lt.mp fun h' => h (.inl h'), Rat.not_lt.mp fun h' => h (.inr h')⟩

theorem good_double (x : Fl) : GoodS (setDouble x) := trivial

theorem good_caught {z : Except Raise SVal} (h : GoodS z) : GoodS (computeMod.caught z) := by
  rw [computeMod.caught.eq_def]
  split
  · exact .inl rfl
  · exact h

theorem good_compute {E : Env} (hE : Faithful E) (op : Oper) (t : Ty) (l r : SVal) : GoodS (compute E op t l r) := by
  rw [compute.eq_def]
  split
  · exact good_int32 _
  · exact good_int64 _
  · exact good_decimal hE _
  · exact good_double _
  · exact good_single _
  · exact good_null

theorem good_computeDiv {E : Env} (hE : Faithful E) (t : Ty) (l r : SVal) : GoodS (computeDiv E t l r) := by
  rw [computeDiv.eq_def]
  split
  · split
    · exact good_eval
    · exact good_int32 _
  · split
    · exact good_eval
    · exact good_int64 _
  · split
    · split
      · exact .inr (.inr rfl)
      · exact good_eval
    · exact good_decimal hE _
  · split
    · exact good_eval
    · exact good_double _
  · split
    · exact good_eval
    · exact good_single _
  · exact good_null

theorem good_computeMod {E : Env} (hE : Faithful E) (t : Ty) (l r : SVal) : GoodS (computeMod E t l r) := by
  rw [computeMod.eq_def]
  split
  · split
    · exact good_eval
    · exact good_caught (good_int32 _)
  · split
    · exact good_eval
    · exact good_caught (good_int64 _)
  · split
    · exact good_eval
    · exact good_caught (good_decimal hE _)
  · split
    · exact good_eval
    · exact good_caught (good_double _)
  · split
    · exact good_eval
    · exact good_caught (good_single _)
  · exact good_null

theorem good_cast {E : Env} (hE : Faithful E) {v : SVal} {t : Ty} (h : Up v.ty t) (hv : v.Fits) : GoodS (v.cast E t) := by
  obtain ⟨v', h1, _, _, h2, _⟩ := cast_up hE h hv
  rw [h1]
  exact h2

theorem good_arithmetic {E : Env} (hE : Faithful E) (op : Oper) {l r : SVal} (hl : l.Fits) (hr : r.Fits) :
    Good (arithmetic E op (.simple l) (.simple r)) := by
  rw [arithmetic, promoteOperands]
  cases hp : promoteTypes l.ty r.ty with
  | error e => rw [(promote_error hp).1]; exact good_evalV
  | ok o =>
    cases o with
    | none => exact good_nullV
    | some t =>
      have hc := promote_ok.mp hp
      show Good (if t ∈ arithTypes then _ else _)
      split
      · obtain ⟨l', h1, _, _, _, _⟩ := cast_up hE (common_up hc).1 hl
        obtain ⟨r', h2, _, _, _, _⟩ := cast_up hE (common_up hc).2 hr
        rw [h1]
        show Good (Except.bind (SVal.cast E r t) _)
        rw [h2]
        have fin : ∀ z : Except Raise SVal, GoodS z → Good (Except.bind z (fun v => .ok (Value.simple v))) := by
          intro z hz
          cases z with
          | ok s => exact ⟨s, rfl, hz⟩
          | error e => exact hz
        cases op <;> first
          | exact fin _ (good_computeDiv hE _ _ _)
          | exact fin _ (good_computeMod hE _ _ _)
          | exact fin _ (good_compute hE _ _ _ _)
      · exact good_evalV

theorem good_relate {E : Env} (hE : Faithful E) (op : Oper) {l r : SVal} (hl : l.Fits) (hr : r.Fits) :
    Good (relate E op (.simple l) (.simple r)) := by
  cases hp : promoteTypes l.ty r.ty with
  | error e => rw [relate, promoteOperands, hp, (promote_error hp).1]; exact good_evalV
  | ok o =>
    cases o with
    | none => rw [relate, promoteOperands, hp]; exact good_boolV
    | some t =>
      have hc := promote_ok.mp hp
      by_cases ht : t ∈ arithTypes
      · obtain ⟨l', h1, _⟩ := cast_up hE (common_up hc).1 hl
        obtain ⟨r', h2, _⟩ := cast_up hE (common_up hc).2 hr
        rw [relate_num hc ht h1 h2]
        exact good_boolV
      · by_cases hraw : t = .string ∨ t = .dateTime ∨ t = .guid
        · rw [relate_raw hc hraw]
          exact good_boolV
        · rw [relate, promoteOperands, hp]
          show Good (if t ∈ arithTypes then _ else if _ then _ else _)
          rw [if_neg ht, if_neg hraw]
          exact good_evalV

theorem good_equal {E : Env} {W : World} (hE : Faithful E) {l r : SVal} (f : Bool → Bool) (hl : l.Fits) (hr : r.Fits) :
    Good ((equal E W (.simple l) (.simple r)).map fun b => .simple (.bool (f b))) := by
  have start : ∀ z : Except Raise Bool, equal E W (.simple l) (.simple r) = z → (∀ e, z = .error e → e = .evaluation) →
      Good ((equal E W (.simple l) (.simple r)).map fun b => .simple (.bool (f b))) := by
    intro z h1 h2
    rw [h1]
    cases z with
    | ok b => exact good_boolV
    | error e => rw [h2 e rfl]; exact good_evalV
  have side : ∀ a b : Nat, Value.simple l = .entity a → Value.simple r = .entity b → False := fun a b h => by cases h
  cases hp : promoteTypes l.ty r.ty with
  | error e =>
    refine start (.error .evaluation) ?_ (fun e h => by cases h; rfl)
    rw [equal, promoteOperands, hp, (promote_error hp).1]
    · rfl
    · exact side
  | ok o =>
    cases o with
    | none =>
      refine start (.ok true) ?_ (fun e h => by cases h)
      rw [equal, promoteOperands, hp]
      · rfl
      · exact side
    | some t =>
      have hc := promote_ok.mp hp
      by_cases ht : t ∈ arithTypes
      · obtain ⟨l', h1, _⟩ := cast_up hE (common_up hc).1 hl
        obtain ⟨r', h2, _⟩ := cast_up hE (common_up hc).2 hr
        exact start _ (equal_num hc ht h1 h2) (fun e h => by cases h)
      · by_cases hraw : t = .string ∨ t = .dateTime ∨ t = .guid ∨ t = .binary
        · exact start _ (equal_raw hc hraw) (fun e h => by cases h)
        · refine start (.error .evaluation) ?_ (fun e h => by cases h; rfl)
          rw [equal, promoteOperands, hp]
          · show (if t ∈ arithTypes then _ else if _ then _ else _) = _
            rw [if_neg ht, if_neg hraw]
          · exact side

theorem good_logic (op : Oper) (l r : SVal) : Good (logic op (.simple l) (.simple r)) := by
  rw [logic, promoteOperands]
  cases hp : promoteTypes l.ty r.ty with
  | error e => rw [(promote_error hp).1]; exact good_evalV
  | ok o =>
    cases o with
    | none => exact good_boolV
    | some t =>
      cases t
      case boolean =>
        cases l <;> first | exact good_boolV | (cases r <;> exact good_boolV)
      all_goals exact good_evalV

theorem good_negate {E : Env} (hE : Faithful E) {v : SVal} (hv : v.Fits) : Good (negate E (.simple v)) := by
  have fin : ∀ s : SVal, Good (match s with
      | .int32 n => (setInt32 (0 - n)).map .simple
      | .int64 n => (setInt64 (0 - n)).map .simple
      | .double x => (setDouble ((Fl.fin 0).add E x.neg)).map .simple
      | .decimal q => (setDecimal E (E.rnd (0 - q))).map .simple
      | .null (some t) =>
        if t = .int32 ∨ t = .int64 ∨ t = .double ∨ t = .decimal then .ok (.simple (.null (some t))) else .error .evaluation
      | .null none => .ok (.simple (.null (some .int32)))
      | _ => .error .evaluation) := by
    intro s
    split
    · exact (good_int32 _).map
    · exact (good_int64 _).map
    · exact (good_double _).map
    · exact (good_decimal hE _).map
    · split
      · exact good_nullV
      · exact good_evalV
    · exact good_nullV
    · exact good_evalV
  rw [negate]
  split
  · rename_i h
    refine (good_cast hE (t := .int32) ?_ hv).bind fun s hs => ?_
    · rcases h with h | h
      · exact .inr (.inr ⟨_, _, _, h, rfl, rfl, by decide⟩)
      · exact .inr (.inr ⟨_, _, _, h, rfl, rfl, by decide⟩)
    · exact fin s
  · split
    · rename_i h
      exact (good_cast hE (t := .double) (.inr (.inr ⟨_, _, _, h, rfl, rfl, by decide⟩)) hv).bind fun s hs => fin s
    · exact fin v

theorem good_not (v : SVal) : Good (boolNot (.simple v)) := by
  cases v <;> first | exact good_nullV | exact good_boolV | exact good_evalV

theorem canCast_up {v : Option Ty} {t : Ty} (ht : t = .string ∨ t = .decimal ∨ t = .double) (h : canCast v t = true) :
    Up v t := by
  cases v with
  | none => exact .inl rfl
  | some a =>
    by_cases e : a = t
    · exact .inr (.inl (by rw [e]))
    · right; right
      rcases ht with rfl | rfl | rfl
      · simp [canCast, e] at h
      · simp only [canCast, if_neg e] at h
        cases a <;> first | exact ⟨_, _, _, rfl, rfl, rfl, by decide⟩ | (exact absurd h (by decide))
      · simp only [canCast, if_neg e] at h
        cases a <;> first | exact ⟨_, _, _, rfl, rfl, rfl, by decide⟩ | (exact absurd h (by decide))

theorem good_promote {E : Env} (hE : Faithful E) {t : Ty} {v : Value} (ht : t = .string ∨ t = .decimal ∨ t = .double)
    (hv : v.Fits) : GoodS (promoteParameter E t v) := by
  cases v with
  | simple v =>
    rw [promoteParameter]
    split
    · rename_i h
      exact good_cast hE (canCast_up ht h) hv
    · exact good_eval
  | complex => exact good_eval
  | entity => exact good_eval

theorem good_strict {t : Ty} {v : Value} (hv : v.Fits) : GoodS (strictParameter t v) := by
  cases v with
  | simple v =>
    rw [strictParameter]
    split
    · exact hv
    · exact good_eval
  | complex => exact good_eval
  | entity => exact good_eval

theorem good_two {l r : SVal} {t : Ty} {f : Str → Str → Except Raise SVal} (hf : ∀ a b, GoodS (f a b)) :
    Good (twoStrings l r t f) := by
  rw [twoStrings.eq_def]
  split
  · exact (hf _ _).map
  · exact good_nullV

theorem good_oneString {x : SVal} {t : Ty} {f : Str → Except Raise SVal} (hf : ∀ a, GoodS (f a)) :
    Good (oneString x t f) := by
  rw [oneString.eq_def]
  split
  · exact (hf _).map
  · exact good_nullV

theorem good_rounded {E : Env} (hE : Faithful E) {m : Meth} {v : Value} (hv : v.Fits) : Good (rounded E m v) := by
  have h1 := good_promote hE (.inr (.inl rfl)) hv
  have h2 := good_promote hE (.inr (.inr rfl)) hv
  rw [rounded.eq_def]
  split
  · exact (good_decimal hE _).map
  · exact good_nullV
  · refine h2.bind fun s hs => ?_
    split
    · exact (good_double _).map
    · exact good_nullV
  · rename_i e _ he
    rw [he] at h1
    exact h1

theorem good_substring (s i : SVal) (n : Option SVal) : Good (.ok (substring s i n)) := by
  rw [substring.eq_def]
  split
  · split
    · exact ⟨_, rfl, trivial⟩
    · exact ⟨_, rfl, trivial⟩
  · exact ⟨_, rfl, trivial⟩

theorem good_method {E : Env} (hE : Faithful E) (m : Meth) {args : List Value} (h : ∀ v ∈ args, v.Fits) :
    Good (method E m args) := by
  rw [method.eq_def]
  split
  case h_1 x y | h_2 x y | h_3 x y | h_4 x y =>
    refine (good_promote hE (.inl rfl) (h x (by simp))).bind fun _ _ =>
      (good_promote hE (.inl rfl) (h y (by simp))).bind fun _ _ => good_two fun _ _ => ?_
    first | exact good_int32 _ | exact trivial
  case h_5 x y =>
    exact (good_strict (h x (by simp))).bind fun _ _ => (good_strict (h y (by simp))).bind fun _ _ =>
      good_two fun _ _ => trivial
  case h_6 x y z =>
    refine (good_promote hE (.inl rfl) (h x (by simp))).bind fun _ _ =>
      (good_promote hE (.inl rfl) (h y (by simp))).bind fun _ _ =>
      (good_promote hE (.inl rfl) (h z (by simp))).bind fun _ _ => ?_
    split
    · exact ⟨_, rfl, trivial⟩
    · exact good_nullV
  case h_7 x | h_8 x | h_9 x =>
    exact (good_promote hE (.inl rfl) (h x (by simp))).bind fun _ _ => good_oneString fun _ => trivial
  case h_10 x =>
    exact (good_strict (h x (by simp))).bind fun _ _ => good_oneString fun _ => good_int32 _
  case h_11 x y =>
    exact (good_strict (h x (by simp))).bind fun _ _ => (good_strict (h y (by simp))).bind fun _ _ => good_substring _ _ _
  case h_12 x y z =>
    exact (good_strict (h x (by simp))).bind fun _ _ => (good_strict (h y (by simp))).bind fun _ _ =>
      (good_strict (h z (by simp))).bind fun _ _ => good_substring _ _ _
  case h_13 x | h_14 x | h_15 x | h_16 x | h_17 x | h_18 x =>
    refine (good_strict (h x (by simp))).bind fun _ _ => ?_
    split
    · exact (good_int32 _).map
    · exact good_nullV
  case h_19 x | h_20 x | h_21 x => exact good_rounded hE (h x (by simp))
  case h_22 => exact good_evalV

end Verif.OData.Eval
