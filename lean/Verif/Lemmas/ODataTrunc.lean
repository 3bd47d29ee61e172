import Verif.Lemmas.ODataTypes

/-!
# Division of integers by floats
-/

namespace Verif.OData.Eval

open Verif

theorem abs_cases (x : Rat) : (0 ≤ x ∧ x.abs = x) ∨ (x ≤ 0 ∧ x.abs = -x) := by
  rcases Rat.le_total (a := 0) (b := x) with h | h
  · exact .inl ⟨h, Rat.abs_of_nonneg h⟩
  · exact .inr ⟨h, Rat.abs_of_nonpos h⟩

theorem cast_add_one (n : Int) : ((n + 1 : Int) : Rat) = (n : Rat) + 1 := by grind

theorem floor_eq {q : Rat} {n : Int} (h : (n : Rat) ≤ q) (h' : q < (n : Rat) + 1) : q.floor = n := by
  have h1 := Rat.le_floor_iff.mpr h
  rw [← cast_add_one] at h'
  have h2 := Rat.floor_lt_iff.mpr h'
  omega

/-- The quotient of integers, rounded and cut, where nothing is lost. -/
theorem near_floor {A B : Int} {f : Rat} (hA : 0 ≤ A) (hA2 : A < 2 ^ 53) (hB : 0 < B)
    (near : ∀ n : Int, n.natAbs ≤ 2 ^ 53 → (f - (A : Rat) / B).abs ≤ ((n : Rat) - (A : Rat) / B).abs)
    (close : A ≠ 0 → (f - (A : Rat) / B).abs * 2 ^ 53 ≤ ((A : Rat) / B).abs) : 0 ≤ f ∧ f.floor = A / B := by
  have hBq : (0 : Rat) < B := Rat.intCast_pos.mpr hB
  have hq : (A : Rat) / B * B = A := Rat.div_mul_cancel (Rat.ne_of_gt hBq)
  generalize (A : Rat) / B = q at hq near close
  have hlow : A / B * B ≤ A := Int.ediv_mul_le A (by omega)
  have hhigh : A < (A / B + 1) * B := Int.lt_ediv_add_one_mul_self A hB
  have hn0 : 0 ≤ A / B := Int.ediv_nonneg hA (by omega)
  have hnA : A / B ≤ A := Int.ediv_le_self B hA
  generalize A / B = n at hlow hhigh hn0 hnA
  have h1 : (n : Rat) * B ≤ q * B := by
    rw [hq]
    have := Rat.intCast_le_intCast.mpr hlow
    grind
  have h1' : (n : Rat) ≤ q := Rat.le_of_mul_le_mul_right h1 hBq
  have hn0' : (0 : Rat) ≤ n := Rat.intCast_nonneg.mpr hn0
  have hnear := near n (by omega)
  have hf : (n : Rat) ≤ f := by
    rcases abs_cases (f - q) with ⟨_, ha⟩ | ⟨_, ha⟩ <;> rcases abs_cases ((n : Rat) - q) with ⟨_, hb⟩ | ⟨_, hb⟩ <;>
      rw [ha, hb] at hnear <;> grind
  have hf' : f < (n : Rat) + 1 := by
    by_cases h0 : A = 0
    · subst h0
      have hq0 : q = 0 := by
        have h00 : q * B = 0 := by rw [hq]; rfl
        rcases Rat.mul_eq_zero.mp h00 with h | h
        · exact h
        · exact absurd h (Rat.ne_of_gt hBq)
      have := near 0 (by omega)
      subst hq0
      have hz : ((0 : Int) : Rat) = 0 := rfl
      rw [hz] at this
      rcases abs_cases (f - 0) with ⟨_, ha⟩ | ⟨_, ha⟩ <;> rcases abs_cases ((0 : Rat) - 0) with ⟨_, hb⟩ | ⟨_, hb⟩ <;>
        rw [ha, hb] at this <;> grind
    · have hc := close h0
      have hqn : 0 ≤ q := by grind
      rw [Rat.abs_of_nonneg hqn] at hc
      have hle : (f - q) * 2 ^ 53 ≤ q := by
        rcases abs_cases (f - q) with ⟨_, ha⟩ | ⟨_, ha⟩ <;> rw [ha] at hc <;> grind
      have hle2 : (f - q) * 2 ^ 53 * B ≤ q * B := Rat.mul_le_mul_of_nonneg_right hle (Rat.le_of_lt hBq)
      have hA2' : (A : Rat) < 2 ^ 53 := by
        have := Rat.intCast_lt_intCast.mpr hA2
        have e : ((2 ^ 53 : Int) : Rat) = 2 ^ 53 := by decide +kernel
        rwa [e] at this
      have hA1 : (A : Rat) + 1 ≤ ((n : Rat) + 1) * B := by
        have h : A + 1 ≤ (n + 1) * B := by omega
        have := Rat.intCast_le_intCast.mpr h
        grind
      have h3 : f * B < ((n : Rat) + 1) * B := by
        have e : (f - q) * 2 ^ 53 * B = (f * B - q * B) * 2 ^ 53 := by grind
        rw [e, hq] at hle2
        grind
      exact Rat.lt_of_mul_lt_mul_right h3 (Rat.le_of_lt hBq)
  exact ⟨by grind, floor_eq hf hf'⟩

theorem trunc_nonneg {f : Rat} (h : 0 ≤ f) : trunc f = f.floor := by
  rw [trunc, if_neg (Rat.not_lt.mpr h)]

theorem trunc_neg {f : Rat} (h : 0 ≤ f) : trunc (-f) = -f.floor := by
  rw [trunc]
  split
  · rw [Rat.ceil_eq_neg_floor_neg, Rat.neg_neg]
  · have h0 : f = 0 := by grind
    subst h0
    decide +kernel

/-- The truncated quotient of integers of less than 53 binary digits. -/
theorem trunc_near {a b : Int} {f : Rat} (ha : a.natAbs < 2 ^ 53) (hb : b ≠ 0)
    (near : ∀ n : Int, n.natAbs ≤ 2 ^ 53 → (f - (a : Rat) / b).abs ≤ ((n : Rat) - (a : Rat) / b).abs)
    (close : a ≠ 0 → (f - (a : Rat) / b).abs * 2 ^ 53 ≤ ((a : Rat) / b).abs) : trunc f = a.tdiv b := by
  have pos : ∀ {A B : Int} {f : Rat}, 0 ≤ A → A < 2 ^ 53 → 0 < B →
      (∀ n : Int, n.natAbs ≤ 2 ^ 53 → (f - (A : Rat) / B).abs ≤ ((n : Rat) - (A : Rat) / B).abs) →
      (A ≠ 0 → (f - (A : Rat) / B).abs * 2 ^ 53 ≤ ((A : Rat) / B).abs) → trunc f = A.tdiv B := by
    intro A B f h1 h2 h3 h4 h5
    obtain ⟨h6, h7⟩ := near_floor h1 h2 h3 h4 h5
    rw [trunc_nonneg h6, h7, Int.tdiv_eq_ediv_of_nonneg h1]
  have neg : ∀ {A B : Int} {f : Rat}, 0 ≤ A → A < 2 ^ 53 → 0 < B →
      (∀ n : Int, n.natAbs ≤ 2 ^ 53 → (f - -((A : Rat) / B)).abs ≤ ((n : Rat) - -((A : Rat) / B)).abs) →
      (A ≠ 0 → (f - -((A : Rat) / B)).abs * 2 ^ 53 ≤ (-((A : Rat) / B)).abs) → trunc f = -(A.tdiv B) := by
    intro A B f h1 h2 h3 h4 h5
    obtain ⟨h6, h7⟩ := near_floor (f := -f) h1 h2 h3 (fun n hn => by
      have := h4 (-n) (by omega)
      have e1 : (-f - (A : Rat) / B) = -(f - -((A : Rat) / B)) := by grind
      have e2 : ((n : Rat) - (A : Rat) / B) = -(((-n : Int) : Rat) - -((A : Rat) / B)) := by grind
      rw [e1, e2, Rat.abs_neg, Rat.abs_neg]
      exact this) (fun h0 => by
      have := h5 h0
      have e1 : (-f - (A : Rat) / B) = -(f - -((A : Rat) / B)) := by grind
      rw [Rat.abs_neg] at this
      rw [e1, Rat.abs_neg]
      exact this)
    have := trunc_neg h6
    rw [Rat.neg_neg] at this
    rw [this, h7, Int.tdiv_eq_ediv_of_nonneg h1]
  rcases Int.lt_or_le a 0 with h1 | h1 <;> rcases Int.lt_or_le b 0 with h2 | h2
  · have e : (a : Rat) / b = ((-a : Int) : Rat) / ((-b : Int) : Rat) := by grind
    rw [e] at near close
    have := pos (A := -a) (B := -b) (f := f) (by omega) (by omega) (by omega) near (fun h => close (by omega))
    rw [this, Int.neg_tdiv, Int.tdiv_neg, Int.neg_neg]
  · have e : (a : Rat) / b = -(((-a : Int) : Rat) / b) := by grind
    rw [e] at near close
    have := neg (A := -a) (B := b) (f := f) (by omega) (by omega) (by omega) near (fun h => close (by omega))
    rw [this, Int.neg_tdiv, Int.neg_neg]
  · have e : (a : Rat) / b = -((a : Rat) / ((-b : Int) : Rat)) := by grind
    rw [e] at near close
    have := neg (A := a) (B := -b) (f := f) (by omega) (by omega) (by omega) near close
    rw [this, Int.tdiv_neg, Int.neg_neg]
  · exact pos (A := a) (B := b) h1 (by omega) (by omega) near close

/-- The exact quotient, cut. -/
theorem trunc_exact {a b : Int} (ha : a.natAbs < 2 ^ 53) (hb : b ≠ 0) : trunc ((a : Rat) / b) = a.tdiv b := by
  have h0 : ((a : Rat) / b - (a : Rat) / b).abs = 0 := by
    have : (a : Rat) / b - (a : Rat) / b = 0 := by grind
    rw [this, Rat.abs_zero]
  refine trunc_near ha hb (fun n _ => ?_) (fun _ => ?_)
  · rw [h0]
    exact Rat.abs_nonneg
  · rw [h0]
    have := Rat.abs_nonneg (x := (a : Rat) / b)
    grind

theorem trunc_int (n : Int) : trunc (n : Rat) = n := by
  rw [trunc]
  split
  · exact Rat.ceil_intCast n
  · exact Rat.floor_intCast n

theorem intCast_eq_zero {b : Int} : (b : Rat) = 0 ↔ b = 0 := by
  constructor
  · intro h
    have : (b : Rat) = ((0 : Int) : Rat) := h
    exact Rat.intCast_inj.mp this
  · intro h
    rw [h]
    rfl

/-- Division of integers by way of floats. -/
theorem div_int {E : Env} (hE : Faithful E) {a b : Int} (ha : a.natAbs < 2 ^ 53) (hb : b.natAbs < 2 ^ 53) :
    (E.dbl a).div E (E.dbl b) = none ∧ b = 0 ∨
      b ≠ 0 ∧ ∃ x, (E.dbl a).div E (E.dbl b) = some x ∧ x.toInt = a.tdiv b := by
  rw [hE.dbl_int a (by omega), hE.dbl_int b (by omega), Fl.div]
  by_cases h0 : b = 0
  · left
    rw [if_pos (by rw [h0]; rfl)]
    exact ⟨rfl, h0⟩
  · right
    refine ⟨h0, ?_⟩
    rw [if_neg (by intro h; injection h with h; exact h0 (intCast_eq_zero.mp h))]
    have hbq : (b : Rat) ≠ 0 := fun h => h0 (intCast_eq_zero.mp h)
    have hB : (1 : Rat) ≤ (b : Rat).abs := by
      rcases Int.lt_or_le b 0 with h | h
      · have h' : (b : Rat) ≤ ((-1 : Int) : Rat) := Rat.intCast_le_intCast.mpr (by omega)
        have h'' : ((-1 : Int) : Rat) = -1 := rfl
        rcases abs_cases (b : Rat) with ⟨_, hc⟩ | ⟨_, hc⟩ <;> rw [hc] <;> grind
      · have h' : ((1 : Int) : Rat) ≤ b := Rat.intCast_le_intCast.mpr (by omega)
        have h'' : ((1 : Int) : Rat) = 1 := rfl
        rcases abs_cases (b : Rat) with ⟨_, hc⟩ | ⟨_, hc⟩ <;> rw [hc] <;> grind
    have hqb : (a : Rat) / b * b = a := Rat.div_mul_cancel hbq
    have hup : ∀ x : Int, x.natAbs < 2 ^ 53 → (x : Rat).abs < 2 ^ 53 := by
      intro x hx
      have h1 : (x : Rat) < ((2 ^ 53 : Int) : Rat) := Rat.intCast_lt_intCast.mpr (by omega)
      have h2 : ((-2 ^ 53 : Int) : Rat) < x := Rat.intCast_lt_intCast.mpr (by omega)
      have e1 : ((2 ^ 53 : Int) : Rat) = 2 ^ 53 := by decide +kernel
      have e2 : ((-2 ^ 53 : Int) : Rat) = -2 ^ 53 := by decide +kernel
      rw [e1] at h1
      rw [e2] at h2
      rcases abs_cases (x : Rat) with ⟨_, hc⟩ | ⟨_, hc⟩ <;> rw [hc] <;> grind
    have habs : ((a : Rat) / b).abs * (b : Rat).abs = (a : Rat).abs := by
      rcases abs_cases ((a : Rat) / b) with ⟨h1, hc⟩ | ⟨h1, hc⟩ <;> rcases abs_cases (b : Rat) with ⟨h2, hd⟩ | ⟨h2, hd⟩ <;>
        rw [hc, hd]
      · rw [hqb, Rat.abs_of_nonneg]
        rw [← hqb]; exact Rat.mul_nonneg h1 h2
      · have : 0 ≤ -(a : Rat) := by
          rw [← hqb, ← Rat.mul_neg]; exact Rat.mul_nonneg h1 (by grind)
        rw [Rat.mul_neg, hqb, Rat.abs_of_nonpos (by grind)]
      · have : 0 ≤ -(a : Rat) := by
          rw [← hqb, ← Rat.neg_mul]; exact Rat.mul_nonneg (by grind) h2
        rw [Rat.neg_mul, hqb, Rat.abs_of_nonpos (by grind)]
      · have : 0 ≤ (a : Rat) := by
          rw [← hqb]
          have : (a : Rat) / b * b = (-((a : Rat) / b)) * (-b) := by grind
          rw [this]
          exact Rat.mul_nonneg (by grind) (by grind)
        have e : -((a : Rat) / b) * -(b : Rat) = (a : Rat) / b * b := by grind
        rw [e, hqb, Rat.abs_of_nonneg this]
    have hqle : ((a : Rat) / b).abs ≤ (a : Rat).abs := by
      have := Rat.mul_le_mul_of_nonneg_left hB (Rat.abs_nonneg (x := (a : Rat) / b))
      rw [habs] at this
      grind
    have hA := hup a ha
    have hBd := hup b hb
    have big : (2 : Rat) ^ 53 ≤ 2 ^ 100 := by decide +kernel
    obtain ⟨f, hf, _, _⟩ := hE.dbl_bound ((a : Rat) / b)
      (by rcases abs_cases ((a : Rat) / b) with ⟨_, hc⟩ | ⟨_, hc⟩ <;> rw [hc] at hqle <;> grind)
      (by rcases abs_cases ((a : Rat) / b) with ⟨_, hc⟩ | ⟨_, hc⟩ <;> rw [hc] at hqle <;> grind)
    refine ⟨.fin f, by rw [← hf], ?_⟩
    refine trunc_near ha h0 (fun n hn => hE.dbl_near _ f n hf hn) (fun ha0 => hE.dbl_close _ f hf ?_)
    have ha1 : (1 : Rat) ≤ (a : Rat).abs := by
      rcases Int.lt_or_le a 0 with h | h
      · have h' : (a : Rat) ≤ ((-1 : Int) : Rat) := Rat.intCast_le_intCast.mpr (by omega)
        have h'' : ((-1 : Int) : Rat) = -1 := rfl
        rcases abs_cases (a : Rat) with ⟨_, hc⟩ | ⟨_, hc⟩ <;> rw [hc] <;> grind
      · have h' : ((1 : Int) : Rat) ≤ a := Rat.intCast_le_intCast.mpr (by omega)
        have h'' : ((1 : Int) : Rat) = 1 := rfl
        rcases abs_cases (a : Rat) with ⟨_, hc⟩ | ⟨_, hc⟩ <;> rw [hc] <;> grind
    have hmul : (1 / 2 ^ 1000 : Rat) * (b : Rat).abs ≤ ((a : Rat) / b).abs * (b : Rat).abs := by
      rw [habs]
      have h1 : (1 / 2 ^ 1000 : Rat) * (b : Rat).abs ≤ (1 / 2 ^ 1000 : Rat) * 2 ^ 53 :=
        Rat.mul_le_mul_of_nonneg_left (Rat.le_of_lt hBd) (by decide +kernel)
      have h2 : (1 / 2 ^ 1000 : Rat) * 2 ^ 53 ≤ 1 := by decide +kernel
      exact Rat.le_trans h1 (Rat.le_trans h2 ha1)
    exact Rat.le_of_mul_le_mul_right hmul (by grind)

/-- The remainder of integers by way of floats. -/
theorem mod_int {E : Env} (hE : Faithful E) {a b : Int} (ha : a.natAbs < 2 ^ 53) (hb : b.natAbs < 2 ^ 53) :
    (E.dbl a).fmod (E.dbl b) = none ∧ b = 0 ∨
      b ≠ 0 ∧ ∃ x, (E.dbl a).fmod (E.dbl b) = some x ∧ x.toInt = a.tmod b := by
  rw [hE.dbl_int a (by omega), hE.dbl_int b (by omega)]
  by_cases h0 : b = 0
  · left
    subst h0
    exact ⟨rfl, rfl⟩
  · right
    refine ⟨h0, ?_⟩
    simp only [Fl.fmod]
    rw [if_neg (fun h => h0 (intCast_eq_zero.mp h)), trunc_exact ha h0]
    refine ⟨_, rfl, ?_⟩
    have e : (a : Rat) - b * (a.tdiv b : Int) = ((a.tmod b : Int) : Rat) := by
      have : a.tmod b = a - b * a.tdiv b := by have := Int.mul_tdiv_add_tmod a b; omega
      rw [this]
      grind
    show trunc _ = _
    rw [e, trunc_int]

end Verif.OData.Eval
