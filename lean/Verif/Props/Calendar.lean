import Verif.Spec.Calendar

/-! # C27, C28 and further calendar properties -/

set_option linter.unusedVariables false

namespace Verif.Props

open Verif Verif.Cal Verif.Spec

theorem leap_iff (y : Int) : leapYear y = true ↔ IsLeap y := by
  unfold leapYear IsLeap
  simp only [Int.dvd_iff_emod_eq_zero]
  by_cases h4 : y % 4 = 0
  · by_cases h100 : y % 100 = 0
    · by_cases h400 : y % 400 = 0
      · simp [h4, h100, h400]
      · simp [h4, h100, h400]
    · simp [h4, h100]
  · have : ¬ y % 400 = 0 := by omega
    simp [h4, this]

/-- Days before the first of January. -/
def yearStart (y : Int) : Int := (y - 1) / 4 - (y - 1) / 100 + (y - 1) / 400 + (y - 1) * 365

/-- Length of a year. -/
def yearLen (y : Int) : Int := 365 + (if leapYear y then 1 else 0)

theorem leap_arith (y : Int) : (leapYear y = true ↔ (y % 4 = 0 ∧ (y % 100 ≠ 0 ∨ y % 400 = 0))) := by
  rw [leap_iff]; unfold IsLeap; simp only [Int.dvd_iff_emod_eq_zero]; omega

theorem yearLen_cases (y : Int) : (yearLen y = 366 ∧ y % 4 = 0 ∧ (y % 100 ≠ 0 ∨ y % 400 = 0)) ∨
    (yearLen y = 365 ∧ ¬ (y % 4 = 0 ∧ (y % 100 ≠ 0 ∨ y % 400 = 0))) := by
  unfold yearLen
  by_cases h : leapYear y = true
  · left; rw [if_pos h]; exact ⟨rfl, (leap_arith y).1 h⟩
  · right; rw [if_neg h]; exact ⟨rfl, fun h' => h ((leap_arith y).2 h')⟩

theorem yearStart_succ (y : Int) : yearStart (y + 1) = yearStart y + yearLen y := by
  rcases yearLen_cases y with ⟨h, h1⟩ | ⟨h, h1⟩ <;> rw [h] <;> unfold yearStart <;> omega

theorem absoluteToOrdinal_spec (y ord : Int) (h1 : 1 ≤ ord) (h2 : ord ≤ yearLen y) :
    absoluteToOrdinal (yearStart y + ord) = (y, ord) := by
  obtain ⟨n, rfl⟩ : ∃ n, y = n + 1 := ⟨y - 1, by omega⟩
  obtain ⟨a, b, c, d, rfl, hb0, hb, hc0, hc, hd0, hd⟩ :
      ∃ a b c d : Int, n = 400 * a + 100 * b + 4 * c + d ∧ 0 ≤ b ∧ b < 4 ∧ 0 ≤ c ∧ c < 25 ∧ 0 ≤ d ∧ d < 4 :=
    ⟨n / 400, n % 400 / 100, n % 400 % 100 / 4, n % 4, by omega, by omega, by omega, by omega, by omega, by omega,
      by omega⟩
  have hx : yearStart (400 * a + 100 * b + 4 * c + d + 1) + ord - 1 =
      146097 * a + (36524 * b + (1461 * c + (365 * d + (ord - 1)))) := by
    unfold yearStart; omega
  have hlen : yearLen (400 * a + 100 * b + 4 * c + d + 1) = 366 ∧ d = 3 ∧ (c ≠ 24 ∨ b = 3) ∨
      yearLen (400 * a + 100 * b + 4 * c + d + 1) = 365 ∧ (d ≠ 3 ∨ (c = 24 ∧ b ≠ 3)) := by
    rcases yearLen_cases (400 * a + 100 * b + 4 * c + d + 1) with ⟨h, h3⟩ | ⟨h, h3⟩ <;> omega
  unfold absoluteToOrdinal
  dsimp only
  rw [hx]
  generalize hr : ord - 1 = r
  have hord : ord = r + 1 := by omega
  subst hord
  generalize yearLen (400 * a + 100 * b + 4 * c + d + 1) = len at *
  have q1 : (146097 * a + (36524 * b + (1461 * c + (365 * d + r)))) / 146097 = a := by omega
  have q2 : (146097 * a + (36524 * b + (1461 * c + (365 * d + r)))) % 146097 =
      36524 * b + (1461 * c + (365 * d + r)) := by omega
  rw [q1, q2]
  by_cases e1 : 36524 * b + (1461 * c + (365 * d + r)) = 146097 - 1
  · rw [if_pos e1]
    have : b = 3 ∧ c = 24 ∧ d = 3 ∧ r = 365 := by omega
    obtain ⟨rfl, rfl, rfl, rfl⟩ := this
    rw [Prod.mk.injEq]; omega
  · rw [if_neg e1]
    have q3 : (36524 * b + (1461 * c + (365 * d + r))) / 36524 = b := by omega
    have q4 : (36524 * b + (1461 * c + (365 * d + r))) % 36524 = 1461 * c + (365 * d + r) := by omega
    rw [q3, q4]
    have q5 : (1461 * c + (365 * d + r)) / 1461 = c := by omega
    have q6 : (1461 * c + (365 * d + r)) % 1461 = 365 * d + r := by omega
    rw [q5, q6]
    by_cases e2 : 365 * d + r = 1461 - 1
    · rw [if_pos e2]
      have : d = 3 ∧ r = 365 := by omega
      obtain ⟨rfl, rfl⟩ := this
      rw [Prod.mk.injEq]; omega
    · rw [if_neg e2]
      have q7 : (365 * d + r) / 365 = d := by omega
      have q8 : (365 * d + r) % 365 = r := by omega
      rw [q7, q8]

theorem absoluteToOrdinal_inv (n : Int) : 1 ≤ (absoluteToOrdinal n).2 ∧
    (absoluteToOrdinal n).2 ≤ yearLen (absoluteToOrdinal n).1 ∧
    yearStart (absoluteToOrdinal n).1 + (absoluteToOrdinal n).2 = n := by
  obtain ⟨y, ord, h1, h2, h3⟩ : ∃ y ord, 1 ≤ ord ∧ ord ≤ yearLen y ∧ yearStart y + ord = n := by
    have key : ∀ k : Nat, ∃ y ord, 1 ≤ ord ∧ ord ≤ yearLen y ∧ yearStart y + ord = 1 + (k : Int) := by
      intro k
      induction k with
      | zero => exact ⟨1, 1, by decide, by decide, by decide⟩
      | succ k ih =>
        obtain ⟨y, ord, h1, h2, h3⟩ := ih
        by_cases h : ord = yearLen y
        · refine ⟨y + 1, 1, by decide, ?_, ?_⟩
          · unfold yearLen; split <;> decide
          · rw [yearStart_succ]; omega
        · exact ⟨y, ord + 1, by omega, by omega, by omega⟩
    have key' : ∀ k : Nat, ∃ y ord, 1 ≤ ord ∧ ord ≤ yearLen y ∧ yearStart y + ord = 1 - (k : Int) := by
      intro k
      induction k with
      | zero => exact ⟨1, 1, by decide, by decide, by decide⟩
      | succ k ih =>
        obtain ⟨y, ord, h1, h2, h3⟩ := ih
        by_cases h : ord = 1
        · have := yearStart_succ (y - 1)
          rw [show y - 1 + 1 = y by omega] at this
          refine ⟨y - 1, yearLen (y - 1), ?_, by omega, by omega⟩
          unfold yearLen; split <;> decide
        · exact ⟨y, ord - 1, by omega, by omega, by omega⟩
    by_cases h : 1 ≤ n
    · obtain ⟨y, ord, h1, h2, h3⟩ := key (n - 1).toNat
      exact ⟨y, ord, h1, h2, by omega⟩
    · obtain ⟨y, ord, h1, h2, h3⟩ := key' (1 - n).toNat
      exact ⟨y, ord, h1, h2, by omega⟩
  rw [← h3, absoluteToOrdinal_spec y ord h1 h2]
  exact ⟨h1, h2, rfl⟩

/-! ## Months -/

/-- Days before the first of the month. -/
def monthStart (leap : Bool) (m : Int) : Int := ((monthSizes leap).take (m - 1).toNat).foldl (· + ·) 0

theorem foldl_add (l : List Int) : ∀ a, l.foldl (· + ·) a = a + l.foldl (· + ·) 0 := by
  induction l with
  | nil => intro a; simp
  | cons x l ih => intro a; simp only [List.foldl_cons]; rw [ih (a + x), ih (0 + x)]; omega

theorem getOrdinal_eq (d : Date) : getOrdinal d = monthStart (leapYear d.absYear) d.month + d.day := by
  unfold getOrdinal monthStart; rw [foldl_add]; omega

theorem month_cases {m : Int} (h1 : 1 ≤ m) (h2 : m ≤ 12) :
    m = 1 ∨ m = 2 ∨ m = 3 ∨ m = 4 ∨ m = 5 ∨ m = 6 ∨ m = 7 ∨ m = 8 ∨ m = 9 ∨ m = 10 ∨ m = 11 ∨ m = 12 := by omega

/-- Days in a month, by leap year flag. -/
def dim (leap : Bool) (m : Int) : Int := (monthSizes leap)[(m - 1).toNat]!

theorem daysIn_eq (y : Int) {m : Int} (h1 : 1 ≤ m) (h2 : m ≤ 12) : daysIn y m = dim (leapYear y) m := by
  unfold daysIn
  by_cases h : leapYear y = true
  · have := (leap_iff y).1 h
    rw [h]
    rcases month_cases h1 h2 with rfl | rfl | rfl | rfl | rfl | rfl | rfl | rfl | rfl | rfl | rfl | rfl <;>
      simp [this, dim, monthSizes]
  · have : ¬ IsLeap y := fun h' => h ((leap_iff y).2 h')
    rw [show leapYear y = false by simpa using h]
    rcases month_cases h1 h2 with rfl | rfl | rfl | rfl | rfl | rfl | rfl | rfl | rfl | rfl | rfl | rfl <;>
      simp [this, dim, monthSizes]

theorem monthStart_succ (leap : Bool) {m : Int} (h1 : 1 ≤ m) (h2 : m ≤ 12) :
    monthStart leap (m + 1) = monthStart leap m + dim leap m := by
  cases leap <;>
    (rcases month_cases h1 h2 with rfl | rfl | rfl | rfl | rfl | rfl | rfl | rfl | rfl | rfl | rfl | rfl <;> decide)

theorem monthStart_13 (leap : Bool) : monthStart leap 13 = 365 + (if leap then 1 else 0) := by
  cases leap <;> decide

theorem monthStart_1 (leap : Bool) : monthStart leap 1 = 0 := by cases leap <;> decide

theorem dim_pos (leap : Bool) {m : Int} (h1 : 1 ≤ m) (h2 : m ≤ 12) : 28 ≤ dim leap m ∧ dim leap m ≤ 31 := by
  cases leap <;>
    (rcases month_cases h1 h2 with rfl | rfl | rfl | rfl | rfl | rfl | rfl | rfl | rfl | rfl | rfl | rfl <;> decide)

theorem monthLoop_spec (leap : Bool) {m day : Int} (h1 : 1 ≤ m) (h2 : m ≤ 12) (h3 : 1 ≤ day) (h4 : day ≤ dim leap m) :
    monthLoop (monthSizes leap) 1 (monthStart leap m + day) = (m, day) := by
  cases leap <;>
    (rcases month_cases h1 h2 with rfl | rfl | rfl | rfl | rfl | rfl | rfl | rfl | rfl | rfl | rfl | rfl <;>
      (simp only [dim, monthSizes, monthStart] at h4 ⊢
       simp at h4 ⊢
       simp only [monthLoop]
       repeat (first | rw [if_neg (by omega)] | rw [if_pos (by omega)])
       all_goals (rw [Prod.mk.injEq]; omega)))

theorem monthLoop_inv (leap : Bool) {ord : Int} (h1 : 1 ≤ ord) (h2 : ord ≤ 365 + (if leap then 1 else 0)) :
    ∃ m day, 1 ≤ m ∧ m ≤ 12 ∧ 1 ≤ day ∧ day ≤ dim leap m ∧ monthStart leap m + day = ord := by
  have key : ∀ k : Nat, (k : Int) + 1 ≤ 365 + (if leap then 1 else 0) →
      ∃ m day, 1 ≤ m ∧ m ≤ 12 ∧ 1 ≤ day ∧ day ≤ dim leap m ∧ monthStart leap m + day = (k : Int) + 1 := by
    intro k
    induction k with
    | zero => intro _; exact ⟨1, 1, by decide, by decide, by decide, by cases leap <;> decide, by cases leap <;> decide⟩
    | succ k ih =>
      intro hk
      obtain ⟨m, day, g1, g2, g3, g4, g5⟩ := ih (by omega)
      by_cases h : day = dim leap m
      · by_cases hm : m = 12
        · have := monthStart_succ leap g1 g2
          subst hm
          have h13 := monthStart_13 leap
          rw [show (12 : Int) + 1 = 13 from rfl] at this
          omega
        · have := monthStart_succ leap g1 g2
          have hp := dim_pos leap (m := m + 1) (by omega) (by omega)
          exact ⟨m + 1, 1, by omega, by omega, by decide, by omega, by omega⟩
      · exact ⟨m, day + 1, g1, g2, by omega, by omega, by omega⟩
  obtain ⟨m, day, g⟩ := key (ord - 1).toNat (by omega)
  exact ⟨m, day, g.1, g.2.1, g.2.2.1, g.2.2.2.1, by omega⟩

theorem getAbsoluteDay_eq (d : Date) : getAbsoluteDay d = yearStart (yearOf d) + getOrdinal d := by
  unfold getAbsoluteDay yearStart yearOf; rfl

theorem valid_dim {d : Date} (h : ValidDate d) : d.day ≤ dim (leapYear (yearOf d)) d.month := by
  rw [← daysIn_eq _ h.2.2.2.2.2.1 h.2.2.2.2.2.2.1]; exact h.2.2.2.2.2.2.2.2

theorem ordinal_range {d : Date} (h : ValidDate d) : 1 ≤ getOrdinal d ∧ getOrdinal d ≤ yearLen (yearOf d) := by
  obtain ⟨h1, h2, h3, h4, h5, h6, h7, h8, h9⟩ := h
  rw [daysIn_eq _ h6 h7] at h9
  rw [getOrdinal_eq]
  rw [show d.absYear = yearOf d from rfl]
  unfold yearLen
  generalize leapYear (yearOf d) = leap at *
  have hs := monthStart_succ leap h6 h7
  have h13 := monthStart_13 leap
  have mono : ∀ k : Nat, (k : Int) ≤ 12 → monthStart leap (1 + k) ≤ monthStart leap 13 ∧ 0 ≤ monthStart leap (1 + k) := by
    intro k hk
    have : k = 0 ∨ k = 1 ∨ k = 2 ∨ k = 3 ∨ k = 4 ∨ k = 5 ∨ k = 6 ∨ k = 7 ∨ k = 8 ∨ k = 9 ∨ k = 10 ∨ k = 11 ∨ k = 12 := by omega
    clear h9 hs h13
    cases leap <;> (rcases this with rfl | rfl | rfl | rfl | rfl | rfl | rfl | rfl | rfl | rfl | rfl | rfl | rfl <;> decide)
  have m1 := mono d.month.toNat (by omega)
  have m2 := mono (d.month - 1).toNat (by omega)
  rw [show 1 + ((d.month.toNat : Nat) : Int) = d.month + 1 by omega] at m1
  rw [show 1 + (((d.month - 1).toNat : Nat) : Int) = d.month by omega] at m2
  omega

/-- **C27 (round trip).**  Converting a date to its absolute day number and back gives the same date. -/
theorem date_absolute_round_trip (d : Date) (h : ValidDate d) : setAbsoluteDay (getAbsoluteDay d) = .ok d := by
  have hr := ordinal_range h
  unfold setAbsoluteDay
  rw [getAbsoluteDay_eq, absoluteToOrdinal_spec _ _ hr.1 hr.2]
  obtain ⟨h1, h2, h3, h4, h5, h6, h7, h8, h9⟩ := h
  rw [daysIn_eq _ h6 h7] at h9
  unfold setOrdinal
  rw [if_neg (by simp only [yearOf] at *; omega)]
  have e1 : yearOf d / 100 = d.century := by unfold yearOf; omega
  have e2 : yearOf d % 100 = d.year := by unfold yearOf; omega
  dsimp only
  rw [e1, e2, show d.century * 100 + d.year = yearOf d from rfl, getOrdinal_eq, show d.absYear = yearOf d from rfl,
    monthLoop_spec _ h6 h7 h8 h9]
  rw [if_neg (by omega)]

/-- **C27 (other round trip).**  Every day number from 1 to 3652059 is the number of a valid date. -/
theorem absolute_date_round_trip (n : Int) (h1 : 1 ≤ n) (h2 : n ≤ 3652059) :
    ∃ d, setAbsoluteDay n = .ok d ∧ ValidDate d ∧ getAbsoluteDay d = n := by
  obtain ⟨g1, g2, g3⟩ := absoluteToOrdinal_inv n
  generalize hy : (absoluteToOrdinal n).1 = y at *
  generalize ho : (absoluteToOrdinal n).2 = ord at *
  have hlen : yearLen y ≤ 366 := by unfold yearLen; split <;> decide
  have hlen' : 365 ≤ yearLen y := by unfold yearLen; split <;> decide
  have hy1 : 1 ≤ y := by
    refine Decidable.byContradiction fun hc => ?_
    unfold yearStart at g3
    rcases yearLen_cases y with ⟨h, h3⟩ | ⟨h, h3⟩ <;> omega
  have hy2 : y ≤ 9999 := by
    refine Decidable.byContradiction fun hc => ?_
    unfold yearStart at g3; omega
  obtain ⟨m, day, k1, k2, k3, k4, k5⟩ := monthLoop_inv (leapYear y) g1 g2
  refine ⟨{ century := y / 100, year := y % 100, month := m, day := day }, ?_, ?_, ?_⟩
  · unfold setAbsoluteDay
    dsimp only
    rw [hy, ho]
    unfold setOrdinal
    rw [if_neg (by omega)]
    dsimp only
    rw [show y / 100 * 100 + y % 100 = y by omega, ← k5, monthLoop_spec _ k1 k2 k3 k4, if_neg (by omega)]
  · refine ⟨?_, ?_, ?_, ?_, ?_, k1, k2, k3, ?_⟩ <;> simp only [yearOf]
    · omega
    · omega
    · omega
    · omega
    · omega
    · rw [show y / 100 * 100 + y % 100 = y by omega, daysIn_eq _ k1 k2]; exact k4
  · rw [getAbsoluteDay_eq, getOrdinal_eq]
    simp only [yearOf, Date.absYear]
    rw [show y / 100 * 100 + y % 100 = y by omega, k5, g3]

theorem yearOf_ymd (y m d : Int) : yearOf (ymd y m d) = y := by unfold yearOf ymd; dsimp only; omega

/-- **C27 (successor).**  The following day has the following number. -/
theorem tomorrow_absolute (d : Date) (h : ValidDate d) : getAbsoluteDay (tomorrow d) = getAbsoluteDay d + 1 := by
  have h9 := valid_dim h
  obtain ⟨h1, h2, h3, h4, h5, h6, h7, h8, h9'⟩ := h
  unfold tomorrow
  by_cases hd : d.day < daysIn (yearOf d) d.month
  · rw [if_pos hd]
    simp only [getAbsoluteDay_eq, getOrdinal_eq, yearOf, Date.absYear]; omega
  · rw [if_neg hd]
    rw [daysIn_eq _ h6 h7] at hd
    have hs := monthStart_succ (leapYear (yearOf d)) h6 h7
    by_cases hm : d.month < 12
    · rw [if_pos hm]
      simp only [getAbsoluteDay_eq, getOrdinal_eq, yearOf, Date.absYear] at hs hd h9 ⊢
      omega
    · rw [if_neg hm]
      have hm12 : d.month = 12 := by omega
      simp only [getAbsoluteDay_eq, getOrdinal_eq, Date.absYear]
      rw [yearOf_ymd, yearStart_succ]
      have h13 := monthStart_13 (leapYear (yearOf d))
      rw [hm12] at hs hd h9 ⊢
      rw [show (12 : Int) + 1 = 13 from rfl, h13] at hs
      simp only [ymd, monthStart_1]
      unfold yearLen
      simp only [yearOf] at *
      omega

/-- Tomorrow is again a date of the calendar, except after the last one. -/
theorem tomorrow_valid (d : Date) (h : ValidDate d) (hl : d ≠ ymd 9999 12 31) : ValidDate (tomorrow d) := by
  obtain ⟨h1, h2, h3, h4, h5, h6, h7, h8, h9⟩ := h
  unfold tomorrow
  split
  · exact ⟨h1, h2, h3, h4, h5, h6, h7, by show 1 ≤ d.day + 1; omega,
      by show d.day + 1 ≤ daysIn (yearOf d) d.month; omega⟩
  · rename_i hd
    split
    · rename_i hm
      refine ⟨h1, h2, h3, h4, h5, by show 1 ≤ d.month + 1; omega, by show d.month + 1 ≤ 12; omega, by show (1 : Int) ≤ 1; decide, ?_⟩
      show 1 ≤ daysIn (yearOf d) (d.month + 1)
      rw [daysIn_eq _ (by omega) (by omega)]
      have := dim_pos (leapYear (yearOf d)) (m := d.month + 1) (by omega) (by omega)
      omega
    · rename_i hm
      have hne : yearOf d ≠ 9999 := by
        intro he
        apply hl
        have hm12 : d.month = 12 := by omega
        have hday : d.day = 31 := by
          rw [daysIn_eq _ h6 h7, hm12] at hd h9
          have : dim (leapYear (yearOf d)) 12 = 31 := by cases leapYear (yearOf d) <;> decide
          omega
        obtain ⟨c, y, m, dd⟩ := d
        simp only [yearOf, ymd, Date.mk.injEq] at *
        omega
      have hy : yearOf d ≤ 9999 := by unfold yearOf; omega
      refine ⟨?_, ?_, ?_, ?_, ?_, by show (1 : Int) ≤ 1; decide, by show (1 : Int) ≤ 12; decide,
        by show (1 : Int) ≤ 1; decide, ?_⟩
      · show 0 ≤ (yearOf d + 1) / 100; omega
      · show (yearOf d + 1) / 100 ≤ 99; omega
      · show 0 ≤ (yearOf d + 1) % 100; omega
      · show (yearOf d + 1) % 100 ≤ 99; omega
      · rw [yearOf_ymd]; omega
      · rw [yearOf_ymd]; simp [daysIn, ymd]

theorem yearStart_mono {a b : Int} (h : a < b) : yearStart a + 366 ≤ yearStart (b + 1) + 0 ∧ yearStart (a + 1) ≤ yearStart b := by
  unfold yearStart; omega

theorem before_lt {a b : Date} (ha : ValidDate a) (hb : ValidDate b) (h : Before a b) :
    getAbsoluteDay a < getAbsoluteDay b := by
  have ra := ordinal_range ha
  have rb := ordinal_range hb
  rw [getAbsoluteDay_eq, getAbsoluteDay_eq]
  rcases h with h | ⟨h, h'⟩
  · have := (yearStart_mono h).2
    rw [yearStart_succ] at this
    omega
  · have da := valid_dim ha
    have db := valid_dim hb
    have ga := getOrdinal_eq a
    have gb := getOrdinal_eq b
    rw [show a.absYear = yearOf a from rfl] at ga
    rw [show b.absYear = yearOf b from rfl] at gb
    rw [← h] at *
    obtain ⟨_, _, _, _, _, a6, a7, a8, a9⟩ := ha
    obtain ⟨_, _, _, _, _, b6, b7, b8, b9⟩ := hb
    rcases h' with h' | ⟨h', h''⟩
    · have hs := monthStart_succ (leapYear (yearOf a)) a6 a7
      have mono : monthStart (leapYear (yearOf a)) (a.month + 1) ≤ monthStart (leapYear (yearOf a)) b.month := by
        generalize leapYear (yearOf a) = leap
        have step : ∀ k : Nat, a.month + 1 + k ≤ 12 →
            monthStart leap (a.month + 1) ≤ monthStart leap (a.month + 1 + k) := by
          intro k
          induction k with
          | zero => intro _; simp
          | succ k ih =>
            intro hk
            have s := monthStart_succ leap (m := a.month + 1 + k) (by omega) (by omega)
            have p := dim_pos leap (m := a.month + 1 + k) (by omega) (by omega)
            have := ih (by omega)
            rw [show a.month + 1 + ((k + 1 : Nat) : Int) = a.month + 1 + k + 1 by omega]
            omega
        have := step (b.month - (a.month + 1)).toNat (by omega)
        rw [show a.month + 1 + (((b.month - (a.month + 1)).toNat : Nat) : Int) = b.month by omega] at this
        exact this
      omega
    · rw [h'] at ga; omega

theorem before_trichotomy {a b : Date} (ha : ValidDate a) (hb : ValidDate b) : Before a b ∨ a = b ∨ Before b a := by
  obtain ⟨a1, a2, a3, a4, _⟩ := ha
  obtain ⟨b1, b2, b3, b4, _⟩ := hb
  obtain ⟨c, y, m, d⟩ := a
  obtain ⟨c', y', m', d'⟩ := b
  simp only [Before, yearOf, Date.mk.injEq] at *
  omega

/-- **C27 (order).**  Later dates have larger numbers, and only they. -/
theorem before_iff_absolute (a b : Date) (ha : ValidDate a) (hb : ValidDate b) :
    Before a b ↔ getAbsoluteDay a < getAbsoluteDay b := by
  refine ⟨before_lt ha hb, fun h => ?_⟩
  rcases before_trichotomy ha hb with h' | rfl | h'
  · exact h'
  · omega
  · have := before_lt hb ha h'; omega

/-- **C27 (comparison).**  The comparison of dates is the order of the calendar. -/
theorem cmp_correct (a b : Date) (ha : ValidDate a) (hb : ValidDate b) :
    (cmp a b = -1 ↔ Before a b) ∧ (cmp a b = 0 ↔ a = b) ∧ (cmp a b = 1 ↔ Before b a) := by
  obtain ⟨a1, a2, a3, a4, _⟩ := ha
  obtain ⟨b1, b2, b3, b4, _⟩ := hb
  obtain ⟨c, y, m, d⟩ := a
  obtain ⟨c', y', m', d'⟩ := b
  simp only [Before, yearOf, Date.mk.injEq, cmp] at *
  repeat' split
  all_goals omega

/-- `Legal` accepts exactly the dates of the calendar. -/
theorem legal_iff (d : Date) : legal d = true ↔ ValidDate d := by
  unfold legal ValidDate
  by_cases h1 : d.century < 0 ∨ d.century > 99
  · rw [if_pos h1]; simp; omega
  · rw [if_neg h1]
    by_cases h2 : d.year < 0 ∨ d.year > 99 ∨ (d.year = 0 ∧ d.century = 0)
    · rw [if_pos h2]; simp [yearOf]; omega
    · rw [if_neg h2]
      by_cases h3 : d.month < 1 ∨ d.month > 12
      · rw [if_pos h3]; simp; omega
      · rw [if_neg h3, daysIn_eq _ (by omega) (by omega)]
        simp only [decide_eq_true_eq]
        unfold dim yearOf
        omega

example : ValidDate (ymd 2000 2 29) ∧ ValidDate (ymd 1 1 1) ∧ ValidDate (ymd 9999 12 31) ∧ ¬ ValidDate (ymd 1900 2 29) ∧
    getAbsoluteDay (ymd 1970 1 1) = 719163 := by
  refine ⟨?_, ?_, ?_, ?_, ?_⟩ <;> (try unfold ValidDate) <;> decide +kernel

/-! ## Days of the week and ISO weeks -/

theorem monthOffsets_eq {m : Int} (h1 : 1 ≤ m) (h2 : m ≤ 12) (leap : Bool) :
    monthOffsets[(m - 1).toNat]! = monthStart leap m - (if m < 3 then 0 else if leap then 1 else 0) := by
  cases leap <;>
    (rcases month_cases h1 h2 with rfl | rfl | rfl | rfl | rfl | rfl | rfl | rfl | rfl | rfl | rfl | rfl <;> decide)

theorem dayOfWeek_eq (d : Date) (h1 : 1 ≤ d.month) (h2 : d.month ≤ 12) :
    dayOfWeek (yearOf d) d.month d.day = (getAbsoluteDay d - 1) % 7 + 1 := by
  rw [getAbsoluteDay_eq, getOrdinal_eq, show d.absYear = yearOf d from rfl]
  unfold dayOfWeek
  dsimp only
  rw [monthOffsets_eq h1 h2 (leapYear (yearOf d))]
  generalize yearOf d = y
  generalize monthStart (leapYear y) d.month = ms
  unfold yearStart
  have hl := leap_arith y
  by_cases hm : d.month < 3
  · by_cases hy : leapYear y = true
    · have hy' := hl.1 hy
      simp only [hm, hy, decide_true, Bool.and_true, if_true]
      omega
    · have hy' : ¬ _ := fun x => hy (hl.2 x)
      simp only [hm, hy, decide_true, Bool.and_false, if_true, Bool.false_eq_true, if_false]
      omega
  · by_cases hy : leapYear y = true
    · have hy' := hl.1 hy
      simp only [hm, hy, decide_false, Bool.false_and, if_true, Bool.false_eq_true, if_false]
      omega
    · have hy' : ¬ _ := fun x => hy (hl.2 x)
      simp only [hm, hy, decide_false, Bool.false_and, if_true, Bool.false_eq_true, if_false]
      omega

/-- **C47 (days of the week).**  1 January 2000 is a Saturday and each following day has the following day of the
week. -/
theorem day_of_week_correct :
    dayOfWeek 2000 1 1 = 6 ∧
    ∀ d, ValidDate d → dayOfWeek (yearOf (tomorrow d)) (tomorrow d).month (tomorrow d).day =
      if dayOfWeek (yearOf d) d.month d.day = 7 then 1 else dayOfWeek (yearOf d) d.month d.day + 1 := by
  refine ⟨by decide +kernel, fun d h => ?_⟩
  have hm : 1 ≤ (tomorrow d).month ∧ (tomorrow d).month ≤ 12 := by
    obtain ⟨h1, h2, h3, h4, h5, h6, h7, h8, h9⟩ := h
    unfold tomorrow
    split
    · exact ⟨h6, h7⟩
    · split
      · show 1 ≤ d.month + 1 ∧ d.month + 1 ≤ 12; omega
      · show (1 : Int) ≤ 1 ∧ (1 : Int) ≤ 12; decide
  rw [dayOfWeek_eq _ hm.1 hm.2, tomorrow_absolute d h, dayOfWeek_eq d h.2.2.2.2.2.1 h.2.2.2.2.2.2.1]
  split <;> omega

end Verif.Props
