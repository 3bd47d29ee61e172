import Verif.Spec.ODataEval

/-!
# Common types and casts of OData values
-/

namespace Verif.OData.Eval

open Verif

/-- All types. -/
def tys : List Ty :=
  [.binary, .boolean, .byte, .dateTime, .offset, .time, .decimal, .double, .single, .guid, .int16, .int32, .int64, .string,
    .sbyte]

theorem mem_tys (t : Ty) : t ∈ tys := by cases t <;> decide

/-- All types and none. -/
def tysNone : List (Option Ty) := none :: tys.map some

theorem mem_tysNone (t : Option Ty) : t ∈ tysNone := by
  cases t with
  | none => exact List.mem_cons_self
  | some t => exact List.mem_cons_of_mem _ (List.mem_map_of_mem (mem_tys t))

/-- The larger of two types, without the order of the tests. -/
def common : Option Ty → Option Ty → Option (Option Ty)
  | none, t => some t
  | t, none => some t
  | some a, some b =>
    if a = b then some (some a)
    else match rank a, rank b with
      | some m, some n => some (some (if n ≤ m then a else b))
      | _, _ => none

theorem promote_table : ∀ a ∈ tysNone, ∀ b ∈ tysNone,
    promoteTypes a b = (match common a b with | some t => .ok t | none => .error .evaluation) := by
  decide +kernel

theorem promote_eq (a b : Option Ty) :
    promoteTypes a b = (match common a b with | some t => .ok t | none => .error .evaluation) :=
  promote_table a (mem_tysNone a) b (mem_tysNone b)

theorem rank_inj {a b : Ty} {n : Nat} (ha : rank a = some n) (hb : rank b = some n) : a = b := by
  have : ∀ a ∈ tys, ∀ b ∈ tys, (rank a).isSome = true → rank a = rank b → a = b := by decide +kernel
  exact this a (mem_tys a) b (mem_tys b) (by rw [ha]; rfl) (by rw [ha, hb])

theorem common_iff (a b c : Option Ty) : common a b = some c ↔ Common a b c := by
  constructor
  · intro h
    cases a with
    | none => simp only [common, Option.some.injEq] at h; rw [← h]; exact .null _
    | some a =>
      cases b with
      | none => simp only [common, Option.some.injEq] at h; rw [← h]; exact .nullRight _
      | some b =>
        simp only [common] at h
        split at h
        · rename_i hab
          simp only [Option.some.injEq] at h
          rw [← h, hab]
          exact .same _
        · split at h
          · rename_i m n hm hn
            simp only [Option.some.injEq] at h
            rw [← h]
            split
            · exact .left hm hn (by assumption)
            · exact .right hm hn (by omega)
          · cases h
  · intro h
    cases h with
    | null => rfl
    | nullRight => cases a <;> rfl
    | same =>
      cases a with
      | none => rfl
      | some a => simp [common]
    | @left a b m n hm hn hle =>
      simp only [common]
      split
      · rfl
      · simp [hm, hn, hle]
    | @right a b m n hm hn hle =>
      simp only [common]
      split
      · rename_i hab; rw [hab]
      · rename_i hne
        simp only [hm, hn]
        split
        · have : m = n := by omega
          subst this
          rw [rank_inj hm hn]
        · rfl

theorem promote_ok {a b c : Option Ty} : promoteTypes a b = .ok c ↔ Common a b c := by
  rw [promote_eq, ← common_iff]
  cases common a b <;> simp

theorem promote_error {a b : Option Ty} {e : Raise} (h : promoteTypes a b = .error e) :
    e = .evaluation ∧ ∀ c, ¬ Common a b c := by
  constructor
  · rw [promote_eq] at h
    cases hc : common a b <;> rw [hc] at h
    · cases h; rfl
    · cases h
  · intro c hc
    rw [promote_ok.mpr hc] at h
    cases h

/-- A type that is promoted to another. -/
def Up (a : Option Ty) (t : Ty) : Prop :=
  a = none ∨ a = some t ∨ ∃ x m n, a = some x ∧ rank x = some m ∧ rank t = some n ∧ m ≤ n

theorem common_up {a b : Option Ty} {t : Ty} (h : Common a b (some t)) : Up a t ∧ Up b t := by
  cases h with
  | null => exact ⟨.inl rfl, .inr (.inl rfl)⟩
  | nullRight => exact ⟨.inr (.inl rfl), .inl rfl⟩
  | same => exact ⟨.inr (.inl rfl), .inr (.inl rfl)⟩
  | left hm hn hle => exact ⟨.inr (.inl rfl), .inr (.inr ⟨_, _, _, rfl, hn, hm, hle⟩)⟩
  | right hm hn hle => exact ⟨.inr (.inr ⟨_, _, _, rfl, hm, hn, hle⟩), .inr (.inl rfl)⟩

/-- The common type does not depend on the order. -/
theorem Common.symm {a b c : Option Ty} (h : Common a b c) : Common b a c := by
  cases h with
  | null => exact .nullRight _
  | nullRight => exact .null _
  | same => exact .same _
  | left hm hn hle => exact .right hn hm hle
  | right hm hn hle => exact .left hn hm hle

/-- There is one common type at most. -/
theorem Common.unique {a b c d : Option Ty} (h : Common a b c) (h' : Common a b d) : c = d := by
  have := (common_iff a b c).mpr h
  rw [(common_iff a b d).mpr h'] at this
  exact (Option.some.inj this).symm

theorem assoc_table : ∀ a ∈ tysNone, ∀ b ∈ tysNone, ∀ c ∈ tysNone,
    ((common a b).bind fun x => common x c) = ((common b c).bind fun x => common a x) := by
  decide +kernel

/-! ## Numbers -/

theorem setInt32_ok {n : Int} (h : range .int32 n) : setInt32 n = .ok (.int32 n) := by
  simp only [range] at h
  rw [setInt32, if_neg (by omega)]

theorem setInt32_error {n : Int} (h : ¬ range .int32 n) : setInt32 n = .error .value := by
  simp only [range] at h
  rw [setInt32, if_pos (by omega)]

theorem setInt64_ok {n : Int} (h : range .int64 n) : setInt64 n = .ok (.int64 n) := by
  simp only [range] at h
  rw [setInt64, if_neg (by omega)]

theorem setInt64_error {n : Int} (h : ¬ range .int64 n) : setInt64 n = .error .value := by
  simp only [range] at h
  rw [setInt64, if_pos (by omega)]

theorem singleMax_eq : singleMax = (2 - 1 / 2 ^ 23) * 2 ^ 127 := by decide +kernel

theorem bound_single : (2 : Rat) ^ 100 ≤ singleMax := by decide +kernel

/-- An integer of 64 bits as a Decimal. -/
theorem setDecimal_int {E : Env} (hE : Faithful E) {n : Int} (h : range .int64 n) :
    setDecimal E n = .ok (.decimal n) := by
  simp only [range] at h
  have hr : E.rnd (-(n : Rat)) = ((-n : Int) : Rat) := by
    have := hE.rnd_short (-n) 0 (by omega)
    have h0 : (((-n : Int) : Rat) / 10 ^ 0) = -(n : Rat) := by
      rw [show ((10 : Rat) ^ 0) = 1 from rfl]
      grind
    rw [h0] at this
    rw [this]
    grind
  have hb : ∀ k : Int, k ≤ 2 ^ 64 → ¬ ((k : Rat) > 10 ^ 29) := by
    intro k hk hgt
    have h1 : (k : Rat) ≤ ((2 ^ 64 : Int) : Rat) := Rat.intCast_le_intCast.mpr hk
    have h2 : ((2 ^ 64 : Int) : Rat) ≤ 10 ^ 29 := by decide +kernel
    exact absurd hgt (Rat.not_lt.mpr (Rat.le_trans h1 h2))
  rw [setDecimal, if_neg]
  split
  · rw [hr]; exact hb _ (by omega)
  · exact hb _ (by omega)

/-- Numbers in the range of Decimals as floats. -/
theorem setSingle_dbl {E : Env} (hE : Faithful E) {q : Rat} (h : -2 ^ 100 ≤ q) (h' : q ≤ 2 ^ 100) :
    ∃ f, E.dbl q = .fin f ∧ setSingle (E.dbl q) = .ok (.single (.fin f)) ∧ -2 ^ 100 ≤ f ∧ f ≤ 2 ^ 100 := by
  obtain ⟨f, hf, hl, hu⟩ := hE.dbl_bound q h h'
  refine ⟨f, hf, ?_, hl, hu⟩
  rw [hf, setSingle, if_neg]
  have := bound_single
  grind

theorem int64_bound {n : Int} (h : range .int64 n) : -2 ^ 100 ≤ (n : Rat) ∧ (n : Rat) ≤ 2 ^ 100 := by
  simp only [range] at h
  constructor
  · have h1 : ((-2 ^ 100 : Int) : Rat) ≤ n := Rat.intCast_le_intCast.mpr (by omega)
    have h2 : ((-2 ^ 100 : Int) : Rat) = -2 ^ 100 := by decide +kernel
    rwa [h2] at h1
  · have h1 : (n : Rat) ≤ ((2 ^ 100 : Int) : Rat) := Rat.intCast_le_intCast.mpr (by omega)
    have h2 : ((2 ^ 100 : Int) : Rat) = 2 ^ 100 := by decide +kernel
    rwa [h2] at h1

theorem single_fits {f : Rat} (hl : -2 ^ 100 ≤ f) (hu : f ≤ 2 ^ 100) : (SVal.single (.fin f)).Fits := by
  have := bound_single
  rw [singleMax_eq] at this
  simp only [SVal.Fits]
  grind

/-- The values integers are cast to. -/
theorem cast_integer {E : Env} (hE : Faithful E) {x t : Ty} {m k : Nat} {n : Int} (hx : rank x = some m)
    (ht : rank t = some k) (hle : m < k) (h3 : m ≤ 3) (hr : range x n) :
    ∃ v', setInteger E t n = .ok v' ∧ v'.ty = some t ∧ v'.isNull = false ∧ v'.Fits ∧
      (k ≤ 4 → v'.number = some (n : Rat)) := by
  have h64 : range .int64 n := by
    cases x <;> simp only [rank] at hx <;> simp only [range] at hr ⊢ <;>
      first | omega | (injection hx with hx; omega) | cases hx
  cases t with
  | byte => simp only [rank, Option.some.injEq] at ht; omega
  | int16 =>
    have hx0 : m = 0 := by simp only [rank, Option.some.injEq] at ht; omega
    subst hx0
    have : x = .byte := rank_inj hx rfl
    subst this
    simp only [range] at hr
    have hs : setInteger E .int16 n = .ok (.int16 n) := by
      show setInt16 n = _
      rw [setInt16, if_neg (by omega)]
    exact ⟨_, hs, rfl, rfl, by simp only [SVal.Fits, range]; omega, fun _ => rfl⟩
  | int32 =>
    have h32 : range .int32 n := by
      cases x <;> simp only [rank, Option.some.injEq] at hx ht <;> simp only [range] at hr ⊢ <;>
        first | omega | cases hx
    exact ⟨_, setInt32_ok h32, rfl, rfl, h32, fun _ => rfl⟩
  | int64 => exact ⟨_, setInt64_ok h64, rfl, rfl, h64, fun _ => rfl⟩
  | decimal =>
    exact ⟨_, setDecimal_int hE h64, rfl, rfl, int64_bound h64, fun _ => rfl⟩
  | double =>
    refine ⟨.double (E.dbl n), rfl, rfl, rfl, trivial, fun h => ?_⟩
    simp only [rank, Option.some.injEq] at ht
    omega
  | single =>
    obtain ⟨f, hf, hs, hl, hu⟩ := setSingle_dbl hE (int64_bound h64).1 (int64_bound h64).2
    refine ⟨_, hs, rfl, rfl, single_fits hl hu, fun h => ?_⟩
    simp only [rank, Option.some.injEq] at ht
    omega
  | binary | boolean | dateTime | offset | time | guid | string | sbyte => cases ht

/-- What a value is cast to where it is promoted: a value of that type, null if and only if it is null, of the same number
unless the type is a floating-point type. -/
theorem cast_up {E : Env} (hE : Faithful E) {v : SVal} {t : Ty} (h : Up v.ty t) (hv : v.Fits) :
    ∃ v', v.cast E t = .ok v' ∧ v'.ty = some t ∧ v'.isNull = v.isNull ∧ v'.Fits ∧
      (v.ty ≠ some t → t ≠ .single → t ≠ .double → v'.number = v.number) ∧ (v.ty = some t → v' = v) := by
  by_cases hty : v.ty = some t
  · exact ⟨v, by rw [SVal.cast.eq_def, if_pos hty], hty, rfl, hv, fun h => absurd hty h, fun _ => rfl⟩
  · rcases h with h | h | ⟨x, m, n, hx, hm, hn, hle⟩
    · cases v <;> try cases h
      exact ⟨.null (some t), by rw [SVal.cast.eq_def, if_neg hty], rfl, rfl, trivial, fun _ _ _ => rfl, fun h => absurd h hty⟩
    · exact absurd h hty
    · have hlt : m < n := by
        rcases Nat.lt_or_eq_of_le hle with h | h
        · exact h
        · subst h
          exact absurd (by rw [hx, rank_inj hm hn]) hty
      have fromInt : ∀ k : Int, v.int = some k → (∀ E t, v.ty ≠ some t → v.cast E t = setInteger E t k) → range x k →
          m ≤ 3 → v.isNull = false → v.number = some (k : Rat) → ∃ v', v.cast E t = .ok v' ∧ v'.ty = some t ∧
          v'.isNull = v.isNull ∧ v'.Fits ∧ (v.ty ≠ some t → t ≠ .single → t ≠ .double → v'.number = v.number) ∧
          (v.ty = some t → v' = v) := by
        intro k _ hc hr h3 hnn hnum
        obtain ⟨v', hs, h1, h2, h3', h4⟩ := cast_integer hE hm hn hlt h3 hr
        refine ⟨v', by rw [hc E t hty, hs], h1, by rw [h2, hnn], h3', fun _ hs hd => ?_, fun h => absurd h hty⟩
        rw [hnum]
        apply h4
        cases t <;> simp only [rank, Option.some.injEq] at hn <;>
          first | omega | exact absurd rfl hs | exact absurd rfl hd | cases hn
      cases v with
      | null o =>
        exact ⟨.null (some t), by rw [SVal.cast.eq_def, if_neg hty], rfl, rfl, trivial, fun _ _ _ => rfl, fun h => absurd h hty⟩
      | byte k =>
        cases hx
        exact fromInt k rfl (fun E t h => by rw [SVal.cast.eq_def, if_neg h]; rfl) hv (by cases hm; omega) rfl rfl
      | int16 k =>
        cases hx
        exact fromInt k rfl (fun E t h => by rw [SVal.cast.eq_def, if_neg h]; rfl) hv (by cases hm; omega) rfl rfl
      | int32 k =>
        cases hx
        exact fromInt k rfl (fun E t h => by rw [SVal.cast.eq_def, if_neg h]; rfl) hv (by cases hm; omega) rfl rfl
      | int64 k =>
        cases hx
        exact fromInt k rfl (fun E t h => by rw [SVal.cast.eq_def, if_neg h]; rfl) hv (by cases hm; omega) rfl rfl
      | decimal q =>
        cases hx
        cases hm
        have : t = .single ∨ t = .double := by
          cases t <;> simp only [rank, Option.some.injEq] at hn <;> first | omega | exact Or.inl rfl | exact Or.inr rfl | cases hn
        rcases this with rfl | rfl
        · obtain ⟨f, hf, hs, hl, hu⟩ := setSingle_dbl hE hv.1 hv.2
          exact ⟨.single (.fin f), by rw [SVal.cast.eq_def, if_neg hty]; exact hs, rfl, rfl, single_fits hl hu, fun _ h => absurd rfl h,
            fun h => absurd h hty⟩
        · exact ⟨.double (E.dbl q), by rw [SVal.cast.eq_def, if_neg hty]; rfl, rfl, rfl, trivial, fun _ _ h => absurd rfl h, fun h => absurd h hty⟩
      | single x =>
        cases hx
        cases hm
        have : t = .double := by
          cases t <;> simp only [rank, Option.some.injEq] at hn <;> first | omega | rfl | cases hn
        subst this
        exact ⟨.double x, by rw [SVal.cast.eq_def, if_neg hty]; rfl, rfl, rfl, trivial, fun _ _ h => absurd rfl h, fun h => absurd h hty⟩
      | double x =>
        cases hx
        cases hm
        cases t <;> simp only [rank, Option.some.injEq] at hn <;> first | omega | cases hn
      | bool | sbyte | string | binary | guid | dateTime | time | offset => cases hx; cases hm

end Verif.OData.Eval
