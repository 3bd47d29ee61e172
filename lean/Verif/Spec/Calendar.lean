import Verif.Model.Calendar

/-! # Specification of the Gregorian calendar (only data types are taken from the model) -/

namespace Verif.Spec

open Verif.Cal

/-- Gregorian leap years. -/
def IsLeap (y : Int) : Prop := (4 ∣ y ∧ ¬ 100 ∣ y) ∨ 400 ∣ y

instance (y : Int) : Decidable (IsLeap y) := by unfold IsLeap; infer_instance

/-- The number of days in a month. -/
def daysIn (y m : Int) : Int :=
  if m = 2 then (if IsLeap y then 29 else 28)
  else if m = 4 ∨ m = 6 ∨ m = 9 ∨ m = 11 then 30
  else 31

/-- The calendar year of a date. -/
def yearOf (d : Date) : Int := d.century * 100 + d.year

/-- A date of the calendar, years 1 to 9999. -/
def ValidDate (d : Date) : Prop :=
  0 ≤ d.century ∧ d.century ≤ 99 ∧ 0 ≤ d.year ∧ d.year ≤ 99 ∧ 1 ≤ yearOf d ∧
  1 ≤ d.month ∧ d.month ≤ 12 ∧ 1 ≤ d.day ∧ d.day ≤ daysIn (yearOf d) d.month

/-- Years split into century and year. -/
def ymd (y m d : Int) : Date := { century := y / 100, year := y % 100, month := m, day := d }

/-- The following day. -/
def tomorrow (d : Date) : Date :=
  if d.day < daysIn (yearOf d) d.month then { d with day := d.day + 1 }
  else if d.month < 12 then { d with month := d.month + 1, day := 1 }
  else ymd (yearOf d + 1) 1 1

/-- One date is before another. -/
def Before (a b : Date) : Prop :=
  yearOf a < yearOf b ∨ (yearOf a = yearOf b ∧ (a.month < b.month ∨ (a.month = b.month ∧ a.day < b.day)))

/-- Julian calendar months. -/
def julianDaysIn (y m : Int) : Int :=
  if m = 2 then (if 4 ∣ y then 29 else 28)
  else if m = 4 ∨ m = 6 ∨ m = 9 ∨ m = 11 then 30
  else 31

/-- The following day in the Julian calendar. -/
def julianTomorrow (d : Int × Int × Int) : Int × Int × Int :=
  if d.2.2 < julianDaysIn d.1 d.2.1 then (d.1, d.2.1, d.2.2 + 1)
  else if d.2.1 < 12 then (d.1, d.2.1 + 1, 1)
  else (d.1 + 1, 1, 1)

/-- The number of seconds into the day; a leap second counts as second 60. -/
def secondsIntoDay (t : Time) : Int := t.hour * 3600 + t.minute * 60 + t.second

end Verif.Spec
