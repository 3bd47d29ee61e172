import Verif.Spec.Calendar

/-!
# The three formats of dates in HTTP (RFC 2616, section 3.3.1)

A small specification, written from the RFC.
-/

namespace Verif.Spec.HttpDate

open Verif Verif.Cal

/-- The short name of a day of the week, Monday is 1. -/
def shortDay (n : Int) : Str :=
  (if n = 1 then "Mon" else if n = 2 then "Tue" else if n = 3 then "Wed" else if n = 4 then "Thu" else
    if n = 5 then "Fri" else if n = 6 then "Sat" else "Sun").toList

/-- The long name of a day of the week, Monday is 1. -/
def longDay (n : Int) : Str :=
  (if n = 1 then "Monday" else if n = 2 then "Tuesday" else if n = 3 then "Wednesday" else if n = 4 then "Thursday" else
    if n = 5 then "Friday" else if n = 6 then "Saturday" else "Sunday").toList

/-- The name of a month, January is 1. -/
def monthName (n : Int) : Str :=
  (if n = 1 then "Jan" else if n = 2 then "Feb" else if n = 3 then "Mar" else if n = 4 then "Apr" else
    if n = 5 then "May" else if n = 6 then "Jun" else if n = 7 then "Jul" else if n = 8 then "Aug" else
    if n = 9 then "Sep" else if n = 10 then "Oct" else if n = 11 then "Nov" else "Dec").toList

/-- A decimal digit. -/
def digit (n : Int) : Char := Char.ofNat (48 + (n % 10).toNat)

/-- Two digits. -/
def two (n : Int) : Str := [digit (n / 10), digit n]

/-- Four digits. -/
def four (n : Int) : Str := two (n / 100) ++ two n

/-- The time of day, `08:49:37`. -/
def clock (t : Time) : Str := two t.hour ++ ":".toList ++ two t.minute ++ ":".toList ++ two t.second

/-- The day of the week, Monday is 1 (C47 is about `dayOfWeek`). -/
def weekday (d : Date) : Int := dayOfWeek (yearOf d) d.month d.day

/-- `Sun, 06 Nov 1994 08:49:37 GMT` -/
def rfc1123 (p : TimePoint) : Str :=
  shortDay (weekday p.date) ++ ", ".toList ++ two p.date.day ++ " ".toList ++ monthName p.date.month ++ " ".toList ++
    four (yearOf p.date) ++ " ".toList ++ clock p.time ++ " GMT".toList

/-- `Sunday, 06-Nov-94 08:49:37 GMT` -/
def rfc850 (p : TimePoint) : Str :=
  longDay (weekday p.date) ++ ", ".toList ++ two p.date.day ++ "-".toList ++ monthName p.date.month ++ "-".toList ++
    two p.date.year ++ " ".toList ++ clock p.time ++ " GMT".toList

/-- `Sun Nov  6 08:49:37 1994`: a space stands for a leading zero of the day. -/
def asctime (p : TimePoint) : Str :=
  shortDay (weekday p.date) ++ " ".toList ++ monthName p.date.month ++ " ".toList ++
    (if p.date.day < 10 then [' ', digit p.date.day] else two p.date.day) ++ " ".toList ++ clock p.time ++ " ".toList ++
    four (yearOf p.date)

/-- A time of day; 24:00:00 and leap seconds are allowed. -/
def LegalTime (t : Time) : Prop :=
  0 ≤ t.hour ∧ t.hour ≤ 24 ∧ 0 ≤ t.minute ∧ t.minute ≤ 59 ∧ 0 ≤ t.second ∧ t.second ≤ 60 ∧
    (t.hour = 24 → t.minute = 0 ∧ t.second = 0)

/-- The same date and time of day in the zone GMT. -/
def inGmt (p : TimePoint) : TimePoint := { p with time := { p.time with zone := some (0, 0) } }

end Verif.Spec.HttpDate
