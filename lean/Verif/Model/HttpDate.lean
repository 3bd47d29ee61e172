import Verif.Model.HttpWords
import Verif.Model.Calendar

/-!
# Dates in HTTP headers

Models `FullDate` and `ParameterParser.RequireFullDate` of `pyslet/pyslet/rfc2616_params.py` (cited as *params*) on top of
the dates of `Verif.Model.Calendar`.
-/

namespace Verif.Http

open Verif Verif.Cal

/-- `ParameterParser.wkday` (params:596). -/
def wkday : List Str := ["Mon", "Tue", "Wed", "Thu", "Fri", "Sat", "Sun"].map String.toList

/-- `ParameterParser._weekday` (params:598). -/
def weekdayLong : List Str :=
  ["Monday", "Tuesday", "Wednesday", "Thursday", "Friday", "Saturday", "Sunday"].map String.toList

/-- `ParameterParser.month` (params:603). -/
def monthNames : List Str :=
  ["Jan", "Feb", "Mar", "Apr", "May", "Jun", "Jul", "Aug", "Sep", "Oct", "Nov", "Dec"].map String.toList

/-- `_wkdayTable.get(token,None)` (params:600, 787-790): the short and the long names are different. -/
def wkdayIndex (token : Str) : Option Nat :=
  (wkday.findIdx? (Py.lower · = token)).or (weekdayLong.findIdx? (Py.lower · = token))

/-- `_monthTable.get(token,None)` (params:605, 791-792). -/
def monthIndex (token : Str) : Option Nat := monthNames.findIdx? (Py.lower · = token)

/-- ASCII part of `str.upper()` (params:679). -/
def upperChar (c : Char) : Char := if 97 ≤ c.toNat ∧ c.toNat ≤ 122 then Char.ofNat (c.toNat - 32) else c

/-- `"%0<k>i"%n` for a number that is not negative (params:139). -/
def padded (k n : Nat) : Str := List.replicate (k - (Py.strNat n).length) '0' ++ Py.strNat n

/-- `FullDate.__str__` (params:129-145): the zone of the time is not looked at.  Dates and times have no negative
components, and the indices are in range. -/
def formatFullDate (p : TimePoint) : Str :=
  let d := p.date
  let t := p.time
  wkday[((getWeekday d).2.2 - 1).toNat]! ++ ", ".toList ++ padded 2 d.day.toNat ++ ' ' ::
    (monthNames[(d.month - 1).toNat]! ++ ' ' :: (padded 4 (d.century * 100 + d.year).toNat ++ ' ' ::
      (padded 2 t.hour.toNat ++ ':' :: (padded 2 t.minute.toNat ++ ':' :: (padded 2 t.second.toNat ++ " GMT".toList)))))

/-- The lookup of a name that raises `SyntaxError` if there is none (params:632-633, 641-642, 656-657, 662-663). -/
def requireName (r : Option Nat) : P Nat := fun ws =>
  match r with
  | some n => .ok (n, ws)
  | none => .error .syntaxError

/-- The day, the month (from 0) and, unless it follows the time, century and year: the century is `None` for a year of two
digits (params:635-665). -/
def requireDayMonth : P (Nat × Nat × Option (Option Nat × Nat)) := do
  if ← parseSeparator ',' then
    parseSP
    let ws ← get
    if isToken ws && isInteger ws then
      let day ← requireInteger
      parseSP
      let token ← requireToken
      let month ← requireName (monthIndex (Py.lower token))
      parseSP
      let year ← requireInteger
      return (day, month, some (some (year / 100), year % 100))
    else
      let token ← requireToken
      match Py.split '-' token with
      | [a, b, c] =>
        if isDigits a && isDigits c then
          let month ← requireName (monthIndex (Py.lower b))
          return (Py.digitsVal 10 a, month, some (none, Py.digitsVal 10 c))
        else throw .syntaxError
      | _ => throw .syntaxError
  else
    let token ← requireToken
    let month ← requireName (monthIndex (Py.lower token))
    parseSP
    let day ← requireInteger
    return (day, month, none)

/-- The end of the date: the year, or the zone if the year is known (params:673-685). -/
def requireYear : Option (Option Nat × Nat) → P (Nat × Nat)
  | none => do
    let year ← requireInteger
    return (year / 100, year % 100)
  | some (century, year) => do
    let token ← requireToken
    if token.map upperChar ≠ "GMT".toList then throw .syntaxError
    return (century.getD (if year < 90 then 20 else 19), year)

/-- `FullDate(date=iso.Date(...),time=iso.Time(...))` and the test of the day of the week (params:686-690): the
constructors raise `DateTimeError`. -/
def makeFullDate (dow day month century year hour minute second : Nat) : Except Fault TimePoint :=
  match mkTimePoint { century := century, year := year, month := month + 1, day := day }
      { hour := hour, minute := minute, second := second, zone := some (0, 0) } with
  | .error _ => .error .dateError
  | .ok p => if (getWeekday p.date).2.2 ≠ dow + 1 then .error .syntaxError else .ok p

/-- `RequireFullDate` (params:609-691). -/
def requireFullDate : P TimePoint := do
  parseSP
  let token ← requireToken
  let dow ← requireName (wkdayIndex (Py.lower token))
  parseSP
  let (day, month, year) ← requireDayMonth
  parseSP
  let hour ← requireInteger
  requireSeparator ':'
  let minute ← requireInteger
  requireSeparator ':'
  let second ← requireInteger
  parseSP
  let (century, year) ← requireYear year
  fun ws => (makeFullDate dow day month century year hour minute second).map fun p => (p, ws)

/-- `FullDate.FromHTTPString` (params:119-127). -/
def fullDateFromString : Str → Option (Except Fault TimePoint) :=
  fromString true do
    let p ← requireFullDate
    parseSP
    requireEnd
    return p

end Verif.Http
