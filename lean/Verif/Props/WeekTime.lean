import Verif.Props.Calendar

/-! # C47 onwards: week dates, Julian dates, times and time points -/

set_option linter.unusedVariables false
set_option linter.unusedSimpArgs false

namespace Verif.Props

open Verif Verif.Cal Verif.Spec

theorem mod7 (x : Int) : x % 7 = 0 ∨ x % 7 = 1 ∨ x % 7 = 2 ∨ x % 7 = 3 ∨ x % 7 = 4 ∨ x % 7 = 5 ∨ x % 7 = 6 := by omega

theorem yearLen_range (y : Int) : 365 ≤ yearLen y ∧ yearLen y ≤ 366 := by unfold yearLen; split <;> decide

theorem year_unique {d : Date} (h : ValidDate d) {y o : Int} (h1 : 1 ≤ o) (h2 : o ≤ yearLen y)
    (h3 : yearStart y + o = getAbsoluteDay d) : y = yearOf d ∧ o = getOrdinal d := by
  have hr := ordinal_range h
  have e1 := absoluteToOrdinal_spec y o h1 h2
  have e2 := absoluteToOrdinal_spec _ _ hr.1 hr.2
  rw [h3, getAbsoluteDay_eq, e2] at e1
  exact ⟨(Prod.mk.inj e1).1.symm, (Prod.mk.inj e1).2.symm⟩

theorem absolute_range {d : Date} (h : ValidDate d) : 1 ≤ getAbsoluteDay d ∧ getAbsoluteDay d ≤ 3652059 := by
  have hr := ordinal_range h
  obtain ⟨h1, h2, h3, h4, h5, _⟩ := h
  rw [getAbsoluteDay_eq]
  have h6 : yearOf d ≤ 9999 := by unfold yearOf; omega
  have hs := yearStart_succ (yearOf d)
  unfold yearStart at *
  omega

theorem setOrdinal_valid {d : Date} (h : ValidDate d) :
    setOrdinal (yearOf d / 100) (yearOf d % 100) (getOrdinal d) = .ok d := by
  have hr := ordinal_range h
  have := date_absolute_round_trip d h
  unfold setAbsoluteDay at this
  rw [getAbsoluteDay_eq, absoluteToOrdinal_spec _ _ hr.1 hr.2] at this
  exact this

theorem dayOfWeek_jan (y n : Int) : dayOfWeek y 1 n = (yearStart y + n - 1) % 7 + 1 := by
  have := dayOfWeek_eq (ymd y 1 n) (by show (1 : Int) ≤ 1; decide) (by show (1 : Int) ≤ 12; decide)
  rw [yearOf_ymd, getAbsoluteDay_eq, getOrdinal_eq, yearOf_ymd] at this
  rw [show (ymd y 1 n).month = 1 from rfl, show (ymd y 1 n).day = n from rfl, monthStart_1] at this
  rw [this]; omega

theorem weekCount_cases (y : Int) : (weekCount y = 53 ∧ (yearStart y % 7 = 3 ∨ (yearStart y % 7 = 2 ∧ yearLen y = 366))) ∨
    (weekCount y = 52 ∧ ¬ (yearStart y % 7 = 3 ∨ (yearStart y % 7 = 2 ∧ yearLen y = 366))) := by
  unfold weekCount yearLen
  dsimp only
  rw [dayOfWeek_jan]
  by_cases h1 : (yearStart y + 1 - 1) % 7 + 1 = 4
  · rw [if_pos h1]; left; exact ⟨rfl, Or.inl (by omega)⟩
  · rw [if_neg h1]
    by_cases h2 : leapYear y = true
    · by_cases h3 : (yearStart y + 1 - 1) % 7 + 1 = 3
      · left; simp only [h2, h3, decide_true, Bool.and_self, if_true]; exact ⟨trivial, Or.inr ⟨by omega, by decide⟩⟩
      · right; simp only [h2, h3, decide_false, Bool.false_and, Bool.false_eq_true, if_false, if_true]
        exact ⟨trivial, by omega⟩
    · right; simp only [h2, Bool.and_false, Bool.false_eq_true, if_false]
      exact ⟨trivial, by omega⟩

theorem getWeekday_eq (d : Date) (h : ValidDate d) :
    getWeekday d =
      (let t := getOrdinal d + 4 - ((getAbsoluteDay d - 1) % 7 + 1)
       if t < 1 then (yearOf d - 1, weekCount (yearOf d - 1), (getAbsoluteDay d - 1) % 7 + 1)
       else if t > yearLen (yearOf d) then (yearOf d + 1, 1, (getAbsoluteDay d - 1) % 7 + 1)
       else (yearOf d, (getOrdinal d - (5 - ((yearStart (yearOf d) + 4 - 1) % 7 + 1))) / 7 + 1,
             (getAbsoluteDay d - 1) % 7 + 1)) := by
  have := dayOfWeek_eq d h.2.2.2.2.2.1 h.2.2.2.2.2.2.1
  unfold getWeekday
  rw [← dayOfWeek_jan, ← this]
  rfl

/-- **C47 (week dates).**  The day of the week is right; the week belongs to the year of its Thursday; and the week is
numbered by the position of that Thursday in that year. -/
theorem week_date_correct (d : Date) (h : ValidDate d) :
    (getWeekday d).2.2 = dayOfWeek (yearOf d) d.month d.day ∧
    ∃ thursday, ValidDate thursday ∧
      getAbsoluteDay thursday = getAbsoluteDay d - (getWeekday d).2.2 + 4 ∧
      yearOf thursday = (getWeekday d).1 ∧
      7 * ((getWeekday d).2.1 - 1) ≤ getAbsoluteDay thursday - getAbsoluteDay (ymd (getWeekday d).1 1 1) ∧
      getAbsoluteDay thursday - getAbsoluteDay (ymd (getWeekday d).1 1 1) < 7 * (getWeekday d).2.1 := by
  have hdow := dayOfWeek_eq d h.2.2.2.2.2.1 h.2.2.2.2.2.2.1
  have hr := ordinal_range h
  have ha := absolute_range h
  have hae := getAbsoluteDay_eq d
  have hd2 : (getWeekday d).2.2 = (getAbsoluteDay d - 1) % 7 + 1 := by
    rw [getWeekday_eq d h]; dsimp only; split
    · rfl
    · split <;> rfl
  refine ⟨by rw [hd2, hdow], ?_⟩
  obtain ⟨t, _, ht, hta⟩ := absolute_date_round_trip (getAbsoluteDay d - ((getAbsoluteDay d - 1) % 7 + 1) + 4)
    (by omega) (by omega)
  refine ⟨t, ht, by rw [hd2, hta], ?_⟩
  have hj : ∀ y, getAbsoluteDay (ymd y 1 1) = yearStart y + 1 := by
    intro y
    rw [getAbsoluteDay_eq, getOrdinal_eq, yearOf_ymd, show (ymd y 1 1).month = 1 from rfl, monthStart_1]
    show yearStart y + (0 + 1) = yearStart y + 1
    omega
  rw [hj, hta]
  have uniq : ∀ y o, 1 ≤ o → o ≤ yearLen y → yearStart y + o = getAbsoluteDay d - ((getAbsoluteDay d - 1) % 7 + 1) + 4 →
      yearOf t = y := fun y o h1 h2 h3 => (year_unique ht h1 h2 (by rw [h3, hta])).1.symm
  rw [getWeekday_eq d h]
  dsimp only
  generalize hA : getAbsoluteDay d = A at *
  generalize hO : getOrdinal d = O at *
  generalize hY : yearOf d = Y at *
  have hs1 := yearStart_succ (Y - 1)
  rw [show Y - 1 + 1 = Y by omega] at hs1
  have hs2 := yearStart_succ Y
  have l1 := yearLen_range (Y - 1)
  have l2 := yearLen_range Y
  have l3 := yearLen_range (Y + 1)
  by_cases c1 : O + 4 - ((A - 1) % 7 + 1) < 1
  · rw [if_pos c1]
    dsimp only
    refine ⟨uniq (Y - 1) (yearLen (Y - 1) + (O + 4 - ((A - 1) % 7 + 1))) (by omega) (by omega) (by omega), ?_⟩
    rcases weekCount_cases (Y - 1) with ⟨w1, w2⟩ | ⟨w1, w2⟩ <;> rw [w1] <;> omega
  · rw [if_neg c1]
    by_cases c2 : O + 4 - ((A - 1) % 7 + 1) > yearLen Y
    · rw [if_pos c2]
      dsimp only
      refine ⟨uniq (Y + 1) (O + 4 - ((A - 1) % 7 + 1) - yearLen Y) (by omega) (by omega) (by omega), ?_⟩
      omega
    · rw [if_neg c2]
      dsimp only
      refine ⟨uniq Y (O + 4 - ((A - 1) % 7 + 1)) (by omega) (by omega) (by omega), ?_⟩
      omega

theorem weekToOrdinal_spec {d : Date} (h : ValidDate d) (y w day : Int) (hy1 : 1 ≤ y) (hy2 : y ≤ 9999)
    (heq : yearStart y + (4 - ((yearStart y + 4 - 1) % 7 + 1) + (w - 1) * 7 + day) = getAbsoluteDay d)
    (hb1 : -365 < 4 - ((yearStart y + 4 - 1) % 7 + 1) + (w - 1) * 7 + day)
    (hb2 : 4 - ((yearStart y + 4 - 1) % 7 + 1) + (w - 1) * 7 + day ≤ 730) :
    weekToOrdinal y w day = .ok (yearOf d, getOrdinal d) := by
  have ha := absolute_range h
  unfold weekToOrdinal
  dsimp only
  rw [dayOfWeek_jan]
  generalize hO : 4 - ((yearStart y + 4 - 1) % 7 + 1) + (w - 1) * 7 + day = o at *
  have hs1 := yearStart_succ (y - 1)
  rw [show y - 1 + 1 = y by omega] at hs1
  have hs2 := yearStart_succ y
  have l1 := yearLen_range (y - 1)
  have l2 := yearLen_range y
  have l3 := yearLen_range (y + 1)
  have e1 : (if leapYear (y - 1) then (366 : Int) else 365) = yearLen (y - 1) := by unfold yearLen; split <;> rfl
  rw [e1, show (365 + (if leapYear y then (1 : Int) else 0)) = yearLen y from rfl]
  by_cases c1 : o < 1
  · rw [if_pos c1, if_neg (by omega)]
    have := year_unique h (y := y - 1) (o := o + yearLen (y - 1)) (by omega) (by omega) (by omega)
    rw [← this.1, ← this.2]
  · rw [if_neg c1]
    by_cases c2 : o > yearLen y
    · have hne : y ≠ 9999 := by
        intro e; subst e
        have : yearStart 9999 + yearLen 9999 = 3652059 := by decide +kernel
        omega
      rw [if_pos c2, if_neg hne]
      have := year_unique h (y := y + 1) (o := o - yearLen y) (by omega) (by omega) (by omega)
      rw [← this.1, ← this.2]
    · rw [if_neg c2]
      have := year_unique h (y := y) (o := o) (by omega) (by omega) (by omega)
      rw [← this.1, ← this.2]

/-- **C47 (week date round trip).**  Reading a date as week date and setting it from that week date gives the date
back. -/
theorem week_date_round_trip (d : Date) (h : ValidDate d) :
    setWeekday ((getWeekday d).1 / 100) ((getWeekday d).1 % 100 / 10) ((getWeekday d).1 % 10) (getWeekday d).2.1
      (getWeekday d).2.2 = .ok d := by
  obtain ⟨h1, t, ht, hta, hty, w1, w2⟩ := week_date_correct d h
  have hdow := dayOfWeek_eq d h.2.2.2.2.2.1 h.2.2.2.2.2.2.1
  rw [hdow] at h1
  have hj : getAbsoluteDay (ymd (getWeekday d).1 1 1) = yearStart (getWeekday d).1 + 1 := by
    rw [getAbsoluteDay_eq, getOrdinal_eq, yearOf_ymd, show (ymd (getWeekday d).1 1 1).month = 1 from rfl, monthStart_1]
    show yearStart _ + (0 + 1) = yearStart _ + 1
    omega
  rw [hj] at w1 w2
  have hr := ordinal_range ht
  have htae := getAbsoluteDay_eq t
  have hty1 : 1 ≤ yearOf t ∧ yearOf t ≤ 9999 := by
    obtain ⟨a1, a2, a3, a4, a5, _⟩ := ht
    unfold yearOf at *; omega
  generalize hW : getWeekday d = W at *
  obtain ⟨wy, w, dow⟩ := W
  simp only at *
  subst hty
  have l := yearLen_range (yearOf t)
  unfold setWeekday
  rw [show yearOf t / 100 * 100 + yearOf t % 100 / 10 * 10 + yearOf t % 10 = yearOf t by omega]
  rw [weekToOrdinal_spec h (yearOf t) w dow hty1.1 hty1.2 (by omega) (by omega) (by omega)]
  exact setOrdinal_valid h

/-- **C48 (guarded).**  Setting a week date that exists gives a date with exactly that week date. -/
theorem week_date_set_partial (y w day : Int) (d : Date) (hy1 : 1 ≤ y) (hy2 : y ≤ 9999) (hw1 : 1 ≤ w)
    (hw2 : w ≤ weekCount y) (hd1 : 1 ≤ day) (hd2 : day ≤ 7)
    (h : setWeekday (y / 100) (y % 100 / 10) (y % 10) w day = .ok d) (hv : ValidDate d) :
    getWeekday d = (y, w, day) := by
  have hwc : weekCount y = 53 ∧ (yearStart y % 7 = 3 ∨ (yearStart y % 7 = 2 ∧ yearLen y = 366)) ∨ weekCount y = 52 :=
    (weekCount_cases y).imp id And.left
  -- the absolute day of the result
  have habs : yearStart y + (4 - ((yearStart y + 4 - 1) % 7 + 1) + (w - 1) * 7 + day) = getAbsoluteDay d := by
    unfold setWeekday at h
    rw [show y / 100 * 100 + y % 100 / 10 * 10 + y % 10 = y by omega] at h
    unfold weekToOrdinal at h
    dsimp only at h
    rw [dayOfWeek_jan] at h
    generalize hO : 4 - ((yearStart y + 4 - 1) % 7 + 1) + (w - 1) * 7 + day = o at *
    have e1 : (if leapYear (y - 1) then (366 : Int) else 365) = yearLen (y - 1) := by unfold yearLen; split <;> rfl
    rw [e1, show (365 + (if leapYear y then (1 : Int) else 0)) = yearLen y from rfl] at h
    have hs1 := yearStart_succ (y - 1)
    rw [show y - 1 + 1 = y by omega] at hs1
    have hs2 := yearStart_succ y
    have l1 := yearLen_range (y - 1)
    have l2 := yearLen_range y
    have l3 := yearLen_range (y + 1)
    have fin : ∀ y' o', 1 ≤ o' → o' ≤ yearLen y' → setOrdinal (y' / 100) (y' % 100) o' = .ok d →
        yearStart y' + o' = getAbsoluteDay d := by
      intro y' o' g1 g2 g3
      unfold setOrdinal at g3
      split at g3
      · cases g3
      · dsimp only at g3
        obtain ⟨m, dd, k1, k2, k3, k4, k5⟩ := monthLoop_inv (leapYear y') g1 g2
        rw [show y' / 100 * 100 + y' % 100 = y' by omega, ← k5, monthLoop_spec _ k1 k2 k3 k4, if_neg (by omega)] at g3
        injection g3 with g3
        subst g3
        rw [getAbsoluteDay_eq, getOrdinal_eq]
        simp only [yearOf, Date.absYear]
        rw [show y' / 100 * 100 + y' % 100 = y' by omega]
        omega
    by_cases c1 : o < 1
    · rw [if_pos c1, if_neg (by omega)] at h
      have := fin (y - 1) (o + yearLen (y - 1)) (by omega) (by omega) h
      omega
    · rw [if_neg c1] at h
      by_cases c2 : o > yearLen y
      · rw [if_pos c2] at h
        by_cases c3 : y = 9999
        · rw [if_pos c3] at h; cases h
        · rw [if_neg c3] at h
          have := fin (y + 1) (o - yearLen y) (by omega) (by omega) h
          omega
      · rw [if_neg c2] at h
        exact fin y o (by omega) (by omega) h
  rw [getWeekday_eq d hv]
  have hr := ordinal_range hv
  have hae := getAbsoluteDay_eq d
  dsimp only
  generalize getAbsoluteDay d = A at *
  generalize getOrdinal d = O at *
  generalize hY : yearOf d = Y at *
  have hs1 := yearStart_succ (y - 1)
  rw [show y - 1 + 1 = y by omega] at hs1
  have hs2 := yearStart_succ y
  have l1 := yearLen_range (y - 1)
  have l2 := yearLen_range y
  have l3 := yearLen_range (y + 1)
  have hYc : Y = y - 1 ∨ Y = y ∨ Y = y + 1 := by
    refine Decidable.byContradiction fun hc => ?_
    have hlen := yearLen_range Y
    by_cases c : Y < y - 1
    · have := (yearStart_mono c).2
      rw [yearStart_succ] at this
      omega
    · have c' : y + 1 < Y := by omega
      have := (yearStart_mono c').2
      have hs3 := yearStart_succ (y + 1)
      omega
  have wc := weekCount_cases (y - 1)
  have wc2 := weekCount_cases y
  rcases hYc with rfl | rfl | rfl
  · rw [if_neg (by omega), if_pos (by omega)]
    simp only [Prod.mk.injEq]; omega
  · rw [if_neg (by omega), if_neg (by omega)]
    rw [Prod.mk.injEq, Prod.mk.injEq]
    refine ⟨rfl, ?_, ?_⟩ <;> (rcases mod7 (yearStart Y) with h7 | h7 | h7 | h7 | h7 | h7 | h7 <;> omega)
  · rw [show y + 1 - 1 = y by omega]
    rw [if_pos (by omega), Prod.mk.injEq, Prod.mk.injEq]
    refine ⟨by omega, ?_, ?_⟩ <;> (rcases mod7 (yearStart y) with h7 | h7 | h7 | h7 | h7 | h7 | h7 <;> omega)

/-- **C48 refuted.**  Week 60, week 0 and day 9 are accepted and silently become other dates. -/
theorem impossible_week_accepted :
    setWeekday 20 0 9 60 1 = .ok (ymd 2010 2 15) ∧ setWeekday 20 0 9 0 1 = .ok (ymd 2008 12 22) ∧
    setWeekday 20 0 9 1 9 = .ok (ymd 2009 1 6) ∧ weekCount 2009 = 53 := by decide +kernel

example : getWeekday (ymd 2009 12 31) = (2009, 53, 4) ∧ getWeekday (ymd 2010 1 3) = (2009, 53, 7) ∧
    getWeekday (ymd 2008 12 29) = (2009, 1, 1) := by decide +kernel

/-! ## pyslet dates -/

theorem pLeap_eq {c y : Int} (h1 : 0 ≤ y) (h2 : y ≤ 99) : pLeapYear c y = leapYear (c * 100 + y) := by
  rw [Bool.eq_iff_iff, leap_arith]
  unfold pLeapYear
  by_cases a : y % 4 = 0
  · by_cases b : y = 0
    · by_cases e : c % 4 = 0
      · simp [b, e]; omega
      · simp [b, e]; omega
    · simp [a, b]; omega
  · simp [a]; omega

theorem pCheck_valid {d : Date} (h : ValidDate d) : pCheck d = .ok d := by
  have h9 := valid_dim h
  obtain ⟨h1, h2, h3, h4, h5, h6, h7, h8, _⟩ := h
  unfold pCheck
  rw [if_neg (by omega), if_neg (by omega), if_neg (by simp only [yearOf] at h5; omega), if_neg (by omega), if_neg]
  unfold dim yearOf at h9
  omega

theorem pCheck_ok {d e : Date} (h : pCheck d = .ok e) : e = d ∧ ValidDate d := by
  unfold pCheck at h
  split at h
  · cases h
  split at h
  · cases h
  split at h
  · cases h
  split at h
  · cases h
  split at h
  · cases h
  rename_i a1 a2 a3 a4 a5
  injection h with h
  refine ⟨h.symm, ⟨by omega, by omega, by omega, by omega, by unfold yearOf; omega, by omega, by omega, by omega, ?_⟩⟩
  rw [daysIn_eq _ (by omega) (by omega)]
  unfold dim yearOf; omega

/-- The date given by an absolute day number, when there is one. -/
theorem pFromAbsoluteDay_ok {n : Int} (hn : n ≠ 0) {e : Date} (h : pFromAbsoluteDay n = .ok e) :
    ValidDate e ∧ getAbsoluteDay e = n := by
  unfold pFromAbsoluteDay at h
  rw [if_pos hn] at h
  dsimp only at h
  obtain ⟨rfl, hv⟩ := pCheck_ok h
  refine ⟨hv, ?_⟩
  obtain ⟨g1, g2, g3⟩ := absoluteToOrdinal_inv n
  generalize (absoluteToOrdinal n).1 = y at *
  generalize (absoluteToOrdinal n).2 = ord at *
  obtain ⟨m, day, k1, k2, k3, k4, k5⟩ := monthLoop_inv (leapYear y) g1 g2
  have he : pFromOrdinal (y / 100) (y % 100) ord = { century := y / 100, year := y % 100, month := m, day := day } := by
    unfold pFromOrdinal
    rw [pLeap_eq (by omega) (by omega), show y / 100 * 100 + y % 100 = y by omega, ← k5, monthLoop_spec _ k1 k2 k3 k4]
  rw [he, getAbsoluteDay_eq, getOrdinal_eq]
  simp only [yearOf, Date.absYear]
  rw [show y / 100 * 100 + y % 100 = y by omega, k5, g3]

theorem pFromAbsoluteDay_abs {d : Date} (h : ValidDate d) : pFromAbsoluteDay (getAbsoluteDay d) = .ok d := by
  have ha := absolute_range h
  have hr := ordinal_range h
  unfold pFromAbsoluteDay
  rw [if_pos (by omega), getAbsoluteDay_eq, absoluteToOrdinal_spec _ _ hr.1 hr.2]
  have h9 := valid_dim h
  have hv := h
  obtain ⟨h1, h2, h3, h4, h5, h6, h7, h8, _⟩ := h
  dsimp only
  have : pFromOrdinal (yearOf d / 100) (yearOf d % 100) (getOrdinal d) = d := by
    unfold pFromOrdinal
    rw [pLeap_eq (by omega) (by omega), show yearOf d / 100 * 100 + yearOf d % 100 = yearOf d by omega,
      getOrdinal_eq, show d.absYear = yearOf d from rfl, monthLoop_spec _ h6 h7 h8 h9]
    have e1 : yearOf d / 100 = d.century := by unfold yearOf; omega
    have e2 : yearOf d % 100 = d.year := by unfold yearOf; omega
    rw [e1, e2]
  rw [this, pCheck_valid hv]

/-- **C49 (guarded).**  Moving a date by days and weeks lands exactly that many days away, whenever the result is not
day zero: it succeeds if that date exists, and otherwise fails. -/
theorem date_offset_days_partial (d : Date) (h : ValidDate d) (weeks days : Int)
    (h0 : getAbsoluteDay d + (days + 7 * weeks) ≠ 0) :
    (∀ e, ValidDate e → getAbsoluteDay e = getAbsoluteDay d + (days + 7 * weeks) →
      pOffset d 0 0 0 weeks days = .ok e) ∧
    (∀ e, pOffset d 0 0 0 weeks days = .ok e →
      ValidDate e ∧ getAbsoluteDay e = getAbsoluteDay d + (days + 7 * weeks)) := by
  have hu : ∀ a b, ValidDate a → ValidDate b → getAbsoluteDay a = getAbsoluteDay b → a = b := by
    intro a b ha hb hab
    have e1 := date_absolute_round_trip a ha
    rw [hab, date_absolute_round_trip b hb] at e1
    injection e1 with e1
    exact e1.symm
  have hred : pOffset d 0 0 0 weeks days =
      if days ≠ 0 ∨ weeks ≠ 0 then pFromAbsoluteDay (getAbsoluteDay d + (days + 7 * weeks)) else .ok d := by
    unfold pOffset
    by_cases c : days ≠ 0 ∨ weeks ≠ 0
    · rw [if_pos c]
      cases pFromAbsoluteDay (getAbsoluteDay d + (days + 7 * weeks)) <;> rfl
    · rw [if_neg c]; rfl
  rw [hred]
  by_cases c : days ≠ 0 ∨ weeks ≠ 0
  · rw [if_pos c]
    refine ⟨fun e he hae => ?_, fun e he => pFromAbsoluteDay_ok h0 he⟩
    rw [← hae]; exact pFromAbsoluteDay_abs he
  · rw [if_neg c]
    have hz : days = 0 ∧ weeks = 0 := by omega
    obtain ⟨rfl, rfl⟩ := hz
    refine ⟨fun e he hae => ?_, fun e he => ?_⟩
    · rw [hu e d he h (by simpa using hae)]
    · injection he with he; subst he; exact ⟨h, by simp⟩

/-- **C49 refuted (day zero).**  The day before the first day of the calendar is the first day itself, not an error. -/
theorem date_offset_day_zero : pOffset (ymd 1 1 1) 0 0 0 0 (-1) = .ok (ymd 1 1 1) ∧ pFromAbsoluteDay 0 = .ok (ymd 1 1 1) ∧
    pOffset (ymd 1 1 1) 0 0 0 0 (-2) = .error .valueError := by decide +kernel

/-- **C49 (months, guarded).**  When moving by months, years and centuries succeeds, the result has the same day of the
month and lies exactly that many months away. -/
theorem date_offset_months_partial (d : Date) (h : ValidDate d) (centuries years months : Int) (e : Date)
    (he : pOffset d centuries years months 0 0 = .ok e) :
    ValidDate e ∧ e.day = d.day ∧
    yearOf e * 12 + e.month = yearOf d * 12 + d.month + months + 12 * years + 1200 * centuries := by
  unfold pOffset at he
  rw [if_neg (by simp)] at he
  simp only [bind, Except.bind] at he
  split at he
  · obtain ⟨rfl, hv⟩ := pCheck_ok he
    refine ⟨hv, rfl, ?_⟩
    simp only [yearOf]
    split <;> dsimp only <;> split <;> dsimp only <;> omega
  · injection he with he
    subst he
    refine ⟨h, rfl, ?_⟩
    omega

/-- **C49 refuted (existing dates).**  One month before 15 January 2010 fails, and a combined move by one day and one month
from 31 January 2010 uses the day of the month of the start. -/
theorem date_offset_wrong :
    pOffset (ymd 2010 1 15) 0 0 (-1) 0 0 = .error .valueError ∧
    pOffset (ymd 2010 1 31) 0 0 0 0 1 = .ok (ymd 2010 2 1) ∧ pOffset (ymd 2010 2 1) 0 0 1 0 0 = .ok (ymd 2010 3 1) ∧
    pOffset (ymd 2010 1 31) 0 0 1 0 1 = .ok (ymd 2010 3 31) := by decide +kernel

/-! ## Julian dates -/

/-- Days before the first of January in the Julian calendar, counted as the code does. -/
def jStart (y : Int) : Int := (y - 1) / 4 + (y - 1) * 365

theorem jStart_succ (y : Int) : jStart (y + 1) = jStart y + 365 + (if y % 4 = 0 then 1 else 0) := by
  unfold jStart; split <;> omega

theorem julian_of_absolute (d : Date) {y m day : Int} (h1 : 1 ≤ m) (h2 : m ≤ 12) (h3 : 1 ≤ day)
    (h4 : day ≤ dim (decide (y % 4 = 0)) m)
    (h : getAbsoluteDay d + 2 = jStart y + monthStart (decide (y % 4 = 0)) m + day) :
    getJulianDay d = (y, m, day) := by
  have hms : 1 ≤ monthStart (decide (y % 4 = 0)) m + day ∧
      monthStart (decide (y % 4 = 0)) m + day ≤ 365 + (if y % 4 = 0 then 1 else 0) := by
    have key : ∀ leap, day ≤ dim leap m → 1 ≤ monthStart leap m + day ∧
        monthStart leap m + day ≤ 365 + (if leap then 1 else 0) := by
      intro leap hd
      rcases month_cases h1 h2 with rfl | rfl | rfl | rfl | rfl | rfl | rfl | rfl | rfl | rfl | rfl | rfl <;>
        cases leap <;> simp [dim, monthSizes, monthStart] at hd ⊢ <;> omega
    have := key _ h4
    by_cases c : y % 4 = 0
    · simp only [c, decide_true, if_true] at this ⊢; exact this
    · simp only [c, decide_false, Bool.false_eq_true, if_false] at this ⊢; exact this
  unfold getJulianDay
  dsimp only
  generalize ho : monthStart (decide (y % 4 = 0)) m + day = o at *
  have hday : getAbsoluteDay d + 1 = jStart y + (o - 1) := by omega
  rw [hday]
  obtain ⟨q, r, rfl, hr0, hr⟩ : ∃ q r : Int, y = 4 * q + r + 1 ∧ 0 ≤ r ∧ r < 4 := ⟨(y - 1) / 4, (y - 1) % 4, by omega, by omega, by omega⟩
  have hj : jStart (4 * q + r + 1) + (o - 1) = 1461 * q + (365 * r + (o - 1)) := by unfold jStart; omega
  rw [hj]
  have hl : (4 * q + r + 1) % 4 = 0 ↔ r = 3 := by omega
  have hob : o ≤ 365 + (if r = 3 then 1 else 0) := by
    have := hms.2
    simp only [hl] at this
    exact this
  have q1 : (1461 * q + (365 * r + (o - 1))) / 1461 = q := by split at hob <;> omega
  have q2 : (1461 * q + (365 * r + (o - 1))) % 1461 = 365 * r + (o - 1) := by split at hob <;> omega
  rw [q1, q2]
  have hyd : (if 365 * r + (o - 1) = 1461 - 1 then (4 * q + 3, (365 : Int))
      else (4 * q + (365 * r + (o - 1)) / 365, (365 * r + (o - 1)) % 365)) = (4 * q + r, o - 1) := by
    by_cases c : 365 * r + (o - 1) = 1461 - 1
    · rw [if_pos c, Prod.mk.injEq]; split at hob <;> omega
    · rw [if_neg c, Prod.mk.injEq]; split at hob <;> omega
  rw [hyd]
  dsimp only
  rw [show o - 1 + 1 = o by omega, ← ho, monthLoop_spec _ h1 h2 h3 h4]

theorem julian_decompose (n : Int) : ∃ y m day, 1 ≤ m ∧ m ≤ 12 ∧ 1 ≤ day ∧ day ≤ dim (decide (y % 4 = 0)) m ∧
    n = jStart y + monthStart (decide (y % 4 = 0)) m + day := by
  obtain ⟨y, o, h1, h2, h3⟩ : ∃ y o, 1 ≤ o ∧ o ≤ 365 + (if y % 4 = 0 then 1 else 0) ∧ jStart y + o = n := by
    have hq : n - 1 = 1461 * ((n - 1) / 1461) + (n - 1) % 1461 := by omega
    by_cases c : (n - 1) % 1461 = 1460
    · refine ⟨4 * ((n - 1) / 1461) + 4, 366, by decide, ?_, ?_⟩
      · rw [if_pos (by omega)]; decide
      · unfold jStart; omega
    · refine ⟨4 * ((n - 1) / 1461) + (n - 1) % 1461 / 365 + 1, (n - 1) % 1461 % 365 + 1, by omega, ?_, ?_⟩
      · split <;> omega
      · unfold jStart; omega
  obtain ⟨m, day, k1, k2, k3, k4, k5⟩ := monthLoop_inv (decide (y % 4 = 0)) h1 (by
    by_cases c : y % 4 = 0
    · simp only [c, decide_true, if_true] at h2 ⊢; exact h2
    · simp only [c, decide_false, Bool.false_eq_true, if_false] at h2 ⊢; exact h2)
  exact ⟨y, m, day, k1, k2, k3, k4, by omega⟩

theorem julianDaysIn_eq (y : Int) {m : Int} (h1 : 1 ≤ m) (h2 : m ≤ 12) : julianDaysIn y m = dim (decide (y % 4 = 0)) m := by
  unfold julianDaysIn
  by_cases c : y % 4 = 0
  · have : (4 : Int) ∣ y := Int.dvd_of_emod_eq_zero c
    simp only [c, this, decide_true, if_true]
    rcases month_cases h1 h2 with rfl | rfl | rfl | rfl | rfl | rfl | rfl | rfl | rfl | rfl | rfl | rfl <;> decide
  · have : ¬ (4 : Int) ∣ y := fun h => c (Int.emod_eq_zero_of_dvd h)
    simp only [c, this, decide_false, if_false]
    rcases month_cases h1 h2 with rfl | rfl | rfl | rfl | rfl | rfl | rfl | rfl | rfl | rfl | rfl | rfl <;> decide

/-- **C50 (Julian dates).**  15 October 1582 is 5 October 1582 in the Julian calendar, and the following day is the
following day in the Julian calendar too. -/
theorem julian_correct :
    getJulianDay (ymd 1582 10 15) = (1582, 10, 5) ∧
    ∀ d, ValidDate d → getJulianDay (tomorrow d) = julianTomorrow (getJulianDay d) := by
  refine ⟨by decide +kernel, fun d h => ?_⟩
  obtain ⟨y, m, day, k1, k2, k3, k4, k5⟩ := julian_decompose (getAbsoluteDay d + 2)
  rw [julian_of_absolute d k1 k2 k3 k4 k5]
  have ht := tomorrow_absolute d h
  unfold julianTomorrow
  dsimp only
  rw [julianDaysIn_eq y k1 k2]
  have hs := monthStart_succ (decide (y % 4 = 0)) k1 k2
  by_cases c1 : day < dim (decide (y % 4 = 0)) m
  · rw [if_pos c1]
    exact julian_of_absolute _ k1 k2 (by omega) (by omega) (by omega)
  · rw [if_neg c1]
    by_cases c2 : m < 12
    · rw [if_pos c2]
      have := dim_pos (decide (y % 4 = 0)) (m := m + 1) (by omega) (by omega)
      exact julian_of_absolute _ (by omega) (by omega) (by decide) (by omega) (by omega)
    · rw [if_neg c2]
      have hm : m = 12 := by omega
      subst hm
      refine julian_of_absolute _ (by decide) (by decide) (by decide) ?_ ?_
      · have := dim_pos (decide ((y + 1) % 4 = 0)) (m := 1) (by decide) (by decide); omega
      · rw [monthStart_1, jStart_succ]
        have h13 := monthStart_13 (decide (y % 4 = 0))
        rw [show (12 : Int) + 1 = 13 from rfl, h13] at hs
        by_cases c : y % 4 = 0
        · simp only [c, decide_true, if_true] at *; omega
        · simp only [c, decide_false, Bool.false_eq_true, if_false] at *; omega

/-- **C50 (round trip).**  Every date is found again from its Julian date. -/
theorem julian_round_trip (d : Date) (h : ValidDate d) :
    fromJulian (getJulianDay d).1 (getJulianDay d).2.1 (getJulianDay d).2.2 = .ok d := by
  obtain ⟨y, m, day, k1, k2, k3, k4, k5⟩ := julian_decompose (getAbsoluteDay d + 2)
  rw [julian_of_absolute d k1 k2 k3 k4 k5]
  unfold fromJulian
  dsimp only
  rw [foldl_add, show ((monthSizes (decide (y % 4 = 0))).take (m - 1).toNat).foldl (· + ·) 0 =
    monthStart (decide (y % 4 = 0)) m from rfl]
  unfold jStart at k5
  rw [show (y - 1) / 4 + (y - 1) * 365 + (day + monthStart (decide (y % 4 = 0)) m) - 2 = getAbsoluteDay d by omega]
  exact pFromAbsoluteDay_abs h

/-- **C50 refuted at one day.**  2 January of year 1 of the Julian calendar is before the first date; instead of an error
it gives that first date, which is 3 January. -/
theorem julian_day_zero : fromJulian 1 1 2 = .ok (ymd 1 1 1) ∧ getJulianDay (ymd 1 1 1) = (1, 1, 3) := by decide +kernel

/-! ## Times -/

theorem checkTime_ok {t r : Time} (h : checkTime t = .ok r) :
    r = t ∧ 0 ≤ t.hour ∧ t.hour ≤ 24 ∧ 0 ≤ t.minute ∧ t.minute ≤ 59 ∧ 0 ≤ t.second ∧ t.second ≤ 60 ∧
      (t.hour = 24 → t.minute = 0 ∧ t.second = 0) := by
  unfold checkTime at h
  have : ∀ (x : Except Err Unit) (y : Except Err Time), (x >>= fun _ => y) = .ok r → y = .ok r := by
    intro x y hxy
    cases x with
    | error e => cases hxy
    | ok u => exact hxy
  replace h := this _ _ h
  split at h
  · cases h
  split at h
  · cases h
  split at h
  · cases h
  split at h
  · cases h
  rename_i a1 a2 a3 a4
  injection h with h
  exact ⟨h.symm, by omega, by omega, by omega, by omega, by omega, by omega, by omega⟩

/-- **C51 (adding).**  When adding hours, minutes and seconds to a time succeeds, the result together with the day
overflow lies exactly that far away. -/
theorem time_offset_exact_partial (t : Time) (hours minutes seconds : Int) (r : Time) (days : Int)
    (h : timeOffset t hours minutes seconds = .ok (r, days)) :
    secondsIntoDay r + 86400 * days = secondsIntoDay t + 3600 * hours + 60 * minutes + seconds := by
  unfold timeOffset at h
  dsimp only at h
  generalize hc : checkTime _ = c at h
  cases c with
  | error e => cases h
  | ok r' =>
    have h' := Except.ok.inj (show Except.ok (r', _) = Except.ok (r, days) from h)
    obtain ⟨rfl, rfl⟩ := Prod.mk.inj h'
    obtain ⟨rfl, _⟩ := checkTime_ok hc
    unfold secondsIntoDay
    by_cases a : seconds = 0
    · simp only [a, ne_eq, not_true_eq_false, if_false]
      by_cases b : minutes = 0
      · simp only [b, ne_eq, not_true_eq_false, if_false]
        by_cases c : hours = 0
        · simp only [c, ne_eq, not_true_eq_false, if_false]; omega
        · simp only [c, ne_eq, not_false_eq_true, if_true]; omega
      · simp only [b, ne_eq, not_false_eq_true, if_true]
        by_cases c : hours + (t.minute + minutes) / 60 = 0
        · simp only [c, ne_eq, not_true_eq_false, if_false]; omega
        · simp only [c, ne_eq, not_false_eq_true, if_true]; omega
    · simp only [a, ne_eq, not_false_eq_true, if_true]
      by_cases b : minutes + (t.second + seconds) / 60 = 0
      · simp only [b, ne_eq, not_true_eq_false, if_false]
        by_cases c : hours = 0
        · simp only [c, ne_eq, not_true_eq_false, if_false]; omega
        · simp only [c, ne_eq, not_false_eq_true, if_true]; omega
      · simp only [b, ne_eq, not_false_eq_true, if_true]
        by_cases c : hours + (t.minute + (minutes + (t.second + seconds) / 60)) / 60 = 0
        · simp only [c, ne_eq, not_true_eq_false, if_false]; omega
        · simp only [c, ne_eq, not_false_eq_true, if_true]; omega

/-- **C51 refuted (adding).**  Adding five seconds to 24:00:00 fails. -/
theorem time_offset_midnight_fails :
    timeOffset { hour := 24, minute := 0, second := 0, zone := none } 0 0 5 = .error .valueError := by decide +kernel

theorem shiftZone_ok {t r : Time} {dir zh zm over : Int} (h : shiftZone t dir zh zm = .ok (r, over)) :
    ∃ old, zoneOffset t = some old ∧ zoneOffset r = some (dir * (zh * 60 + zm)) ∧
      secondsIntoDay r - 60 * (dir * (zh * 60 + zm)) + 86400 * over = secondsIntoDay t - 60 * old ∧
      0 ≤ r.hour ∧ r.hour ≤ 24 ∧ 0 ≤ r.minute ∧ r.minute ≤ 59 ∧ r.second = t.second := by
  unfold shiftZone at h
  cases ho : zoneOffset t with
  | none => rw [ho] at h; cases h
  | some old =>
    rw [ho] at h
    dsimp only at h
    refine ⟨old, rfl, ?_⟩
    generalize hc : checkTime _ = c at h
    cases c with
    | error e => cases h
    | ok r' =>
      have h' := Except.ok.inj (show Except.ok (r', _) = Except.ok (r, over) from h)
      obtain ⟨rfl, rfl⟩ := Prod.mk.inj h'
      obtain ⟨rfl, c1, c2, c3, c4, c5, c6, c7⟩ := checkTime_ok hc
      dsimp only at *
      refine ⟨?_, ?_, c1, c2, c3, c4, rfl⟩
      · unfold zoneOffset
        by_cases z : dir = 0
        · simp [z]
        · simp [z]
      · unfold secondsIntoDay
        dsimp only
        generalize dir * (zh * 60 + zm) = n at *
        clear hc h h' c1 c2 c3 c4 c5 c6 c7
        by_cases a1 : t.minute + (n - old) % 60 > 59
        · simp only [a1, if_true]
          by_cases a2 : t.hour + 1 + (n - old) / 60 > 23
          · simp only [a2, if_true]; omega
          · simp only [a2, if_false]
            by_cases a3 : t.hour + 1 + (n - old) / 60 < 0
            · simp only [a3, if_true]; omega
            · simp only [a3, if_false]; omega
        · simp only [a1, if_false]
          by_cases a4 : t.minute + (n - old) % 60 < 0
          · simp only [a4, if_true]
            by_cases a2 : t.hour - 1 + (n - old) / 60 > 23
            · simp only [a2, if_true]; omega
            · simp only [a2, if_false]
              by_cases a3 : t.hour - 1 + (n - old) / 60 < 0
              · simp only [a3, if_true]; omega
              · simp only [a3, if_false]; omega
          · simp only [a4, if_false]
            by_cases a2 : t.hour + (n - old) / 60 > 23
            · simp only [a2, if_true]; omega
            · simp only [a2, if_false]
              by_cases a3 : t.hour + (n - old) / 60 < 0
              · simp only [a3, if_true]; omega
              · simp only [a3, if_false]; omega

/-- **C51 (zones).**  When changing the zone of a time succeeds, the result has the requested zone and, with the day
overflow, is the same instant. -/
theorem shift_zone_exact_partial (t r : Time) (dir zh zm over : Int) (h : shiftZone t dir zh zm = .ok (r, over)) :
    ∃ old, zoneOffset t = some old ∧ zoneOffset r = some (dir * (zh * 60 + zm)) ∧
      secondsIntoDay r - 60 * (dir * (zh * 60 + zm)) + 86400 * over = secondsIntoDay t - 60 * old := by
  obtain ⟨old, h1, h2, h3, _⟩ := shiftZone_ok h
  exact ⟨old, h1, h2, h3⟩

/-- **C51 refuted (zones).**  Half past midnight in zone +14:00 cannot be expressed in zone -11:00. -/
theorem shift_zone_fails :
    shiftZone { hour := 0, minute := 30, second := 0, zone := some (1, 840) } (-1) 11 0 = .error .valueError := by
  decide +kernel

/-- **C51 (zones, success).**  Changing zones succeeds for every ordinary time when the two zones differ by at most a
day. -/
theorem shift_zone_succeeds_partial (t : Time) (dir zh zm old : Int) (ho : zoneOffset t = some old)
    (h1 : 0 ≤ t.hour) (h2 : t.hour ≤ 23) (h3 : 0 ≤ t.minute) (h4 : t.minute ≤ 59) (h5 : 0 ≤ t.second) (h6 : t.second ≤ 60)
    (hd : dir = -1 ∨ dir = 0 ∨ dir = 1) (hz : zh * 60 + zm < 1440)
    (h7 : -1440 ≤ dir * (zh * 60 + zm) - old) (h8 : dir * (zh * 60 + zm) - old ≤ 1440) :
    ∃ r over, shiftZone t dir zh zm = .ok (r, over) ∧ 0 ≤ r.hour ∧ r.hour ≤ 23 := by
  unfold shiftZone
  rw [ho]
  dsimp only
  generalize hs : dir * (zh * 60 + zm) - old = s at *
  have fin : ∀ (H M O : Int), 0 ≤ H → H ≤ 23 → 0 ≤ M → M ≤ 59 →
      ∃ r over, (checkTime (Time.mk H M t.second (some (if dir = 0 then (0, 0) else (dir, zh * 60 + zm)))) >>= fun r => Except.ok (r, O)) =
        .ok (r, over) ∧ 0 ≤ r.hour ∧ r.hour ≤ 23 := by
    intro H M O a1 a2 a3 a4
    refine ⟨Time.mk H M t.second (some (if dir = 0 then (0, 0) else (dir, zh * 60 + zm))), O, ?_, a1, a2⟩
    unfold checkTime
    dsimp only
    have f1 : ¬ ((if dir = 0 then ((0 : Int), (0 : Int)) else (dir, zh * 60 + zm)).1 < -1 ∨
        (if dir = 0 then ((0 : Int), (0 : Int)) else (dir, zh * 60 + zm)).1 > 1) := by
      split
      · show ¬ ((0 : Int) < -1 ∨ (0 : Int) > 1); decide
      · show ¬ (dir < -1 ∨ dir > 1); omega
    have f2 : ¬ ((if dir = 0 then ((0 : Int), (0 : Int)) else (dir, zh * 60 + zm)).1 ≠ 0 ∧
        (if dir = 0 then ((0 : Int), (0 : Int)) else (dir, zh * 60 + zm)).2 ≥ 1440) := by
      split
      · show ¬ ((0 : Int) ≠ 0 ∧ (0 : Int) ≥ 1440); decide
      · show ¬ (dir ≠ 0 ∧ zh * 60 + zm ≥ 1440); omega
    rw [if_neg f1, if_neg f2]
    simp only [bind, Except.bind]
    rw [if_neg (by omega), if_neg (by omega), if_neg (by omega), if_neg (by omega)]
  by_cases c1 : t.minute + s % 60 > 59
  · simp only [c1, if_true]
    by_cases c2 : t.hour + 1 + s / 60 > 23
    · simp only [c2, if_true]; exact fin _ _ _ (by omega) (by omega) (by omega) (by omega)
    · simp only [c2, if_false]
      by_cases c3 : t.hour + 1 + s / 60 < 0
      · simp only [c3, if_true]; exact fin _ _ _ (by omega) (by omega) (by omega) (by omega)
      · simp only [c3, if_false]; exact fin _ _ _ (by omega) (by omega) (by omega) (by omega)
  · have c1' : ¬ t.minute + s % 60 < 0 := by omega
    simp only [c1, c1', if_false]
    by_cases c2 : t.hour + s / 60 > 23
    · simp only [c2, if_true]; exact fin _ _ _ (by omega) (by omega) (by omega) (by omega)
    · simp only [c2, if_false]
      by_cases c3 : t.hour + s / 60 < 0
      · simp only [c3, if_true]; exact fin _ _ _ (by omega) (by omega) (by omega) (by omega)
      · simp only [c3, if_false]; exact fin _ _ _ (by omega) (by omega) (by omega) (by omega)

/-! ## Time points -/

/-- The instant a time point denotes, in seconds, when its zone is `off` minutes ahead of UTC. -/
def instant (p : TimePoint) (off : Int) : Int := getAbsoluteDay p.date * 86400 + secondsIntoDay p.time - 60 * off

theorem mkTimePoint_ok {d : Date} {t : Time} {p : TimePoint} (h : mkTimePoint d t = .ok p) :
    p = { date := d, time := t } ∧ ValidDate d := by
  unfold mkTimePoint at h
  cases hp : pCheck d with
  | error e => rw [hp] at h; cases h
  | ok d' =>
    rw [hp] at h
    cases hc : checkTime t with
    | error e => simp only [bind, Except.bind, hc] at h; cases h
    | ok t' =>
      simp only [bind, Except.bind, hc] at h
      injection h with h
      obtain ⟨rfl, hv⟩ := pCheck_ok hp
      obtain ⟨rfl, _⟩ := checkTime_ok hc
      exact ⟨h.symm, hv⟩

theorem over_ge (P Q : Prop) [Decidable P] [Decidable Q] (x y z : Int) :
    -1 ≤ (if P then (x, (1 : Int)) else if Q then (y, -1) else (z, 0)).2 := by
  split
  · show (-1 : Int) ≤ 1; decide
  · split
    · show (-1 : Int) ≤ -1; decide
    · show (-1 : Int) ≤ 0; decide

/-- **C51 (time points).**  A time point expressed in another zone is the same instant, away from the first two days of
the calendar. -/
theorem shift_zone_instant_partial (p q : TimePoint) (hd : ValidDate p.date) (h2 : 2 ≤ getAbsoluteDay p.date)
    (dir zh zm : Int) (h : tpShiftZone p dir zh zm = .ok q) :
    ∃ old, zoneOffset p.time = some old ∧ zoneOffset q.time = some (dir * (zh * 60 + zm)) ∧
      instant q (dir * (zh * 60 + zm)) = instant p old := by
  unfold tpShiftZone at h
  cases hs : shiftZone p.time dir zh zm with
  | error e => rw [hs] at h; cases h
  | ok r =>
    obtain ⟨r, over⟩ := r
    rw [hs] at h
    obtain ⟨old, g1, g2, g3, _⟩ := shiftZone_ok hs
    have hover : -1 ≤ over := by
      unfold shiftZone at hs
      rw [g1] at hs
      dsimp only at hs
      generalize hc : checkTime _ = c at hs
      cases c with
      | error e => cases hs
      | ok r' =>
        have h' := Except.ok.inj (show Except.ok (r', _) = Except.ok (r, over) from hs)
        obtain ⟨_, rfl⟩ := Prod.mk.inj h'
        exact over_ge _ _ _ _ _
    refine ⟨old, g1, ?_⟩
    have h' : ((if over ≠ 0 then pOffset p.date 0 0 0 0 over else .ok p.date) >>= fun d => mkTimePoint d r) = .ok q := h
    by_cases c : over = 0
    · rw [if_neg (by simpa using c)] at h'
      obtain ⟨rfl, _⟩ := mkTimePoint_ok h'
      refine ⟨g2, ?_⟩
      unfold instant; dsimp only; omega
    · rw [if_pos c] at h'
      cases ho : pOffset p.date 0 0 0 0 over with
      | error e => rw [ho] at h'; cases h'
      | ok d =>
        rw [ho] at h'
        obtain ⟨rfl, _⟩ := mkTimePoint_ok h'
        obtain ⟨_, hab⟩ := (date_offset_days_partial p.date hd 0 over (by omega)).2 d ho
        refine ⟨g2, ?_⟩
        unfold instant; dsimp only; omega

theorem timeCmp_spec {a b : Time} (ha : 0 ≤ a.minute ∧ a.minute ≤ 59 ∧ 0 ≤ a.second ∧ a.second ≤ 59)
    (hb : 0 ≤ b.minute ∧ b.minute ≤ 59 ∧ 0 ≤ b.second ∧ b.second ≤ 59) :
    (timeCmp a b = -1 ↔ secondsIntoDay a < secondsIntoDay b) ∧ (timeCmp a b = 0 ↔ secondsIntoDay a = secondsIntoDay b) ∧
    (timeCmp a b = 1 ↔ secondsIntoDay b < secondsIntoDay a) := by
  unfold timeCmp secondsIntoDay
  repeat' split
  all_goals (refine ⟨⟨fun h => ?_, fun h => ?_⟩, ⟨fun h => ?_, fun h => ?_⟩, ⟨fun h => ?_, fun h => ?_⟩⟩ <;> omega)

/-- Comparison of time points in the same zone. -/
theorem tpCmp_same {a b : TimePoint} (ha : ValidDate a.date) (hb : ValidDate b.date)
    (ta : 0 ≤ a.time.hour ∧ a.time.hour ≤ 23 ∧ 0 ≤ a.time.minute ∧ a.time.minute ≤ 59 ∧ 0 ≤ a.time.second ∧ a.time.second ≤ 59)
    (tb : 0 ≤ b.time.hour ∧ b.time.hour ≤ 23 ∧ 0 ≤ b.time.minute ∧ b.time.minute ≤ 59 ∧ 0 ≤ b.time.second ∧ b.time.second ≤ 59)
    {r : Int} (h : (if cmp a.date b.date ≠ 0 then (.ok (cmp a.date b.date) : Except Err Int)
      else .ok (timeCmp a.time b.time)) = .ok r) (off : Int) :
    (r = -1 ↔ instant a off < instant b off) ∧ (r = 0 ↔ instant a off = instant b off) ∧
    (r = 1 ↔ instant b off < instant a off) := by
  obtain ⟨c1, c2, c3⟩ := cmp_correct a.date b.date ha hb
  have b1 := before_iff_absolute a.date b.date ha hb
  have b2 := before_iff_absolute b.date a.date hb ha
  have sa : 0 ≤ secondsIntoDay a.time ∧ secondsIntoDay a.time < 86400 := by unfold secondsIntoDay; omega
  have sb : 0 ≤ secondsIntoDay b.time ∧ secondsIntoDay b.time < 86400 := by unfold secondsIntoDay; omega
  obtain ⟨t1, t2, t3⟩ := timeCmp_spec (a := a.time) (b := b.time) (by omega) (by omega)
  unfold instant
  by_cases c : cmp a.date b.date = 0
  · rw [if_neg (by simpa using c)] at h
    injection h with h
    subst h
    have he := c2.1 c
    rw [he]
    refine ⟨?_, ?_, ?_⟩
    · rw [t1]; omega
    · rw [t2]; omega
    · rw [t3]; omega
  · rw [if_pos c] at h
    injection h with h
    subst h
    have hne : getAbsoluteDay a.date ≠ getAbsoluteDay b.date := by
      intro hab
      have e1 := date_absolute_round_trip a.date ha
      rw [hab, date_absolute_round_trip b.date hb] at e1
      injection e1 with e1
      exact c (c2.2 e1.symm)
    refine ⟨?_, ?_, ?_⟩
    · rw [c1, b1]; omega
    · constructor
      · intro h0; exact absurd h0 c
      · intro h0; omega
    · rw [c3, b2]; omega

/-- **C52 (guarded).**  Time points with zones compare as the instants they denote, for ordinary times (before 24:00, no
leap second) in zones at most a day apart, away from the first two days of the calendar. -/
theorem time_point_cmp_partial (a b : TimePoint) (ha : ValidDate a.date) (hb : ValidDate b.date)
    (ta : 0 ≤ a.time.hour ∧ a.time.hour ≤ 23 ∧ 0 ≤ a.time.minute ∧ a.time.minute ≤ 59 ∧ 0 ≤ a.time.second ∧ a.time.second ≤ 59)
    (tb : 0 ≤ b.time.hour ∧ b.time.hour ≤ 23 ∧ 0 ≤ b.time.minute ∧ b.time.minute ≤ 59 ∧ 0 ≤ b.time.second ∧ b.time.second ≤ 59)
    (h2 : 2 ≤ getAbsoluteDay b.date) (dir off ob : Int) (za : a.time.zone = some (dir, off)) (zb : zoneOffset b.time = some ob)
    (hdir : dir = -1 ∨ dir = 0 ∨ dir = 1) (hoff : 0 ≤ off) (hoff' : off < 1440)
    (hz : -1440 ≤ dir * off - ob ∧ dir * off - ob ≤ 1440) (r : Int) (h : tpCmp a b = .ok r) :
    (r = -1 ↔ instant a (dir * off) < instant b ob) ∧ (r = 0 ↔ instant a (dir * off) = instant b ob) ∧
    (r = 1 ↔ instant b ob < instant a (dir * off)) := by
  have za' : zoneOffset a.time = some (dir * off) := by unfold zoneOffset; rw [za]; rfl
  unfold tpCmp at h
  dsimp only at h
  by_cases c : dir * off = ob
  · rw [za', zb, if_neg (by simp [c])] at h
    rw [c]
    exact tpCmp_same ha hb ta tb h ob
  · rw [za', zb, if_pos (by simpa using c)] at h
    have hcz : ∃ d' o', copyZone a.time = some (d', o') ∧ d' * (o' / 60 * 60 + o' % 60) = dir * off ∧
        (d' = -1 ∨ d' = 0 ∨ d' = 1) ∧ o' / 60 * 60 + o' % 60 < 1440 := by
      unfold copyZone
      rw [za]
      by_cases z : dir = 0
      · exact ⟨0, 0, by simp [z], by simp [z], by simp, by decide⟩
      · refine ⟨dir, off / 60 * 60 + off % 60, by simp [z], ?_, hdir, by omega⟩
        rw [show (off / 60 * 60 + off % 60) / 60 * 60 + (off / 60 * 60 + off % 60) % 60 = off by omega]
    obtain ⟨d', o', e1, e2, e3, e4⟩ := hcz
    rw [e1] at h
    dsimp only at h
    cases hs : tpShiftZone b d' (o' / 60) (o' % 60) with
    | error e => rw [hs] at h; cases h
    | ok q =>
      rw [hs] at h
      obtain ⟨old, i1, i2, i3⟩ := shift_zone_instant_partial b q hb h2 _ _ _ hs
      rw [zb] at i1
      injection i1 with i1
      subst i1
      rw [e2] at i3
      obtain ⟨t, over, s1, s2, s3⟩ := shift_zone_succeeds_partial b.time d' (o' / 60) (o' % 60) ob zb tb.1 tb.2.1 tb.2.2.1
        tb.2.2.2.1 tb.2.2.2.2.1 (by omega) e3 e4 (by rw [e2]; exact hz.1) (by rw [e2]; exact hz.2)
      have hq : ValidDate q.date ∧ q.time = t := by
        unfold tpShiftZone at hs
        rw [s1] at hs
        have hs' : ((if over ≠ 0 then pOffset b.date 0 0 0 0 over else .ok b.date) >>= fun d => mkTimePoint d t) = .ok q := hs
        cases hd : (if over ≠ 0 then pOffset b.date 0 0 0 0 over else (.ok b.date : Except Err Date)) with
        | error e => rw [hd] at hs'; cases hs'
        | ok d =>
          rw [hd] at hs'
          obtain ⟨rfl, hv⟩ := mkTimePoint_ok hs'
          exact ⟨hv, rfl⟩
      obtain ⟨_, _, _, _, _, _, m1, m2, m3⟩ := shiftZone_ok s1
      obtain ⟨qd, qt⟩ := q
      obtain ⟨hq1, rfl⟩ := hq
      have := tpCmp_same ha hq1 ta ⟨s2, s3, m1, m2, by rw [m3]; exact tb.2.2.2.2.1, by rw [m3]; exact tb.2.2.2.2.2⟩ h (dir * off)
      rw [i3] at this
      exact this

/-- The hypotheses are met: 23:00 in zone -05:00 on one day against 09:00 in zone +05:00 on the next. -/
example : tpCmp ⟨ymd 2010 1 1, ⟨23, 0, 0, some (-1, 300)⟩⟩ ⟨ymd 2010 1 2, ⟨9, 0, 0, some (1, 300)⟩⟩ = .ok 0 := by decide +kernel

/-- **C52 refuted.**  Midnight at the end of a day and midnight at the start of the next are the same instant but compare
as different. -/
theorem time_point_cmp_midnight :
    tpCmp ⟨ymd 2010 1 1, ⟨24, 0, 0, some (0, 0)⟩⟩ ⟨ymd 2010 1 2, ⟨0, 0, 0, some (0, 0)⟩⟩ = .ok (-1) ∧
    instant ⟨ymd 2010 1 1, ⟨24, 0, 0, some (0, 0)⟩⟩ 0 = instant ⟨ymd 2010 1 2, ⟨0, 0, 0, some (0, 0)⟩⟩ 0 := by
  decide +kernel

/-- **C52 (Unix times).**  The time point of a Unix time lies that many seconds after the start of 1970 (for times not
before the third day of year 1). -/
theorem unix_time_correct (n : Int) (p : TimePoint) (h : fromUnixTime n = .ok p) (h0 : -719160 * 86400 ≤ n) :
    ValidDate p.date ∧ instant p 0 = instant ⟨ymd 1970 1 1, ⟨0, 0, 0, none⟩⟩ 0 + n := by
  unfold fromUnixTime at h
  cases hs : timeOffset { hour := 0, minute := 0, second := 0, zone := none } 0 0 n with
  | error e => rw [hs] at h; cases h
  | ok r =>
    obtain ⟨r, over⟩ := r
    rw [hs] at h
    have hx := time_offset_exact_partial _ _ _ _ _ _ hs
    have e0 : secondsIntoDay { hour := 0, minute := 0, second := 0, zone := none } = 0 := by decide
    rw [e0] at hx
    have hr : secondsIntoDay r ≤ 86400 * 2 := by
      unfold timeOffset at hs
      dsimp only at hs
      generalize hc : checkTime _ = c at hs
      cases c with
      | error e => cases hs
      | ok r' =>
        have h' := Except.ok.inj (show Except.ok (r', _) = Except.ok (r, over) from hs)
        obtain ⟨rfl, _⟩ := Prod.mk.inj h'
        obtain ⟨h1, h2, h3, h4, h5, h6, h7, _⟩ := checkTime_ok hc
        rw [← h1] at h2 h3 h4 h5 h6 h7
        unfold secondsIntoDay; omega
    have h' : (pOffset (ymd 1970 1 1) 0 0 0 0 over >>= fun d => mkTimePoint d r) = .ok p := h
    have hv : ValidDate (ymd 1970 1 1) := by unfold ValidDate; decide
    have hab : getAbsoluteDay (ymd 1970 1 1) = 719163 := by decide
    cases ho : pOffset (ymd 1970 1 1) 0 0 0 0 over with
    | error e => rw [ho] at h'; cases h'
    | ok d =>
      rw [ho] at h'
      obtain ⟨rfl, hd⟩ := mkTimePoint_ok h'
      obtain ⟨_, he⟩ := (date_offset_days_partial _ hv 0 over (by omega)).2 d ho
      refine ⟨hd, ?_⟩
      unfold instant
      dsimp only
      rw [he, hab, e0]
      omega

/-- The hypotheses are met: a billion seconds. -/
example : fromUnixTime 1000000000 = .ok ⟨ymd 2001 9 9, ⟨1, 46, 40, none⟩⟩ := by decide +kernel

/-! ## Zone designators of the migration library -/

/-- **C28 refuted.**  The sign of a zone designator is dropped: zones behind UTC read as zones ahead of it, and any
character at all is taken for a sign. -/
theorem zone_sign_dropped :
    readZone "-05:00".toList = .ok (some 300) ∧ readZone "+05:00".toList = .ok (some 300) ∧
    readZone "x0530".toList = .ok (some 330) := by decide +kernel

theorem zone_sign_ignored (a b : Char) (s : Str) (h1 : a :: s ≠ ['Z']) (h2 : b :: s ≠ ['Z']) :
    readZone (a :: s) = readZone (b :: s) := by
  unfold readZone
  rw [if_neg h1, if_neg h2]

theorem zfill2_cases {n : Int} (h1 : 0 ≤ n) (h2 : n ≤ 99) :
    ∃ a b, zfill2 n = [a, b] ∧ Py.isDigit a = true ∧ Py.isDigit b = true ∧ (Py.digitsVal 10 [a, b] : Int) = n := by
  obtain ⟨k, rfl⟩ := Int.eq_ofNat_of_zero_le h1
  have hk : k < 100 := by omega
  have key : ∀ k : Fin 100, ∃ a b, zfill2 (k.val : Int) = [a, b] ∧ Py.isDigit a = true ∧ Py.isDigit b = true ∧
      (Py.digitsVal 10 [a, b] : Int) = (k.val : Int) := by
    intro k
    have : (zfill2 (k.val : Int)).length = 2 ∧ (zfill2 (k.val : Int)).all Py.isDigit = true ∧
        (Py.digitsVal 10 (zfill2 (k.val : Int)) : Int) = (k.val : Int) := by
      revert k; decide +kernel
    obtain ⟨l1, l2, l3⟩ := this
    match hz : zfill2 (k.val : Int), l1 with
    | [a, b], _ =>
      rw [hz] at l2 l3
      simp at l2
      exact ⟨a, b, rfl, l2.1, l2.2, l3⟩
  exact key ⟨k, hk⟩

/-- **C28 (magnitude).**  A zone written in basic or extended format reads back as its distance from UTC: the sign is lost,
so zones not behind UTC read back unchanged. -/
theorem zone_round_trip_partial (z : Int) (h1 : -1440 < z) (h2 : z < 1440) (basic useZ : Bool) :
    readZone (writeZone (some z) basic useZ false) = .ok (some (if z ≥ 0 then z else -z)) := by
  unfold writeZone
  dsimp only
  by_cases c : z = 0 ∧ useZ = true
  · rw [if_pos c]
    obtain ⟨rfl, _⟩ := c
    rfl
  · rw [if_neg c]
    have key : ∀ (sg : Char) (m : Int), 0 ≤ m → m < 1440 →
        readZone ([sg] ++ zfill2 (m / 60) ++ (if false = true then [] else
          (if basic = true then [] else [':']) ++ zfill2 (m % 60))) = .ok (some m) := by
      intro sg m hm1 hm2
      obtain ⟨a, b, e1, d1, d2, v1⟩ := zfill2_cases (n := m / 60) (by omega) (by omega)
      obtain ⟨a', b', e2, d3, d4, v2⟩ := zfill2_cases (n := m % 60) (by omega) (by omega)
      rw [e1, e2]
      have hcol : a' ≠ ':' := by rintro rfl; exact absurd d3 (by decide)
      cases basic <;>
      · simp [readZone, allDigits, d1, d2, d3, d4, hcol, bind, Except.bind]
        omega
    by_cases p : z ≥ 0
    · simp only [if_pos p]; exact key _ _ (by omega) (by omega)
    · simp only [if_neg p]; exact key _ _ (by omega) (by omega)

end Verif.Props
