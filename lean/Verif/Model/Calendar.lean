import Verif.Model.Py

/-!
# Calendar dates and times

Models `QTIMigration/lib/iso8601.py` (cited as *lib*) and `pyslet/pyslet/iso8601.py` (cited as *pyslet*).
Complete dates and complete times with whole seconds are modelled; fractional (floating point) components are not.
Python's `/` on integers and `//` are floor division and `%` the floor remainder: for the positive divisors used here
they are Lean's `Int./` and `Int.%`.
-/

namespace Verif.Cal

open Verif

/-- `MONTH_SIZES`, `MONTH_SIZES_LEAPYEAR` (lib:112-113, pyslet:48-49). -/
def monthSizes (leap : Bool) : List Int := [31, if leap then 29 else 28, 31, 30, 31, 30, 31, 31, 30, 31, 30, 31]

/-- `MONTH_OFFSETS` (lib:114, pyslet:50). -/
def monthOffsets : List Int := [0, 31, 59, 90, 120, 151, 181, 212, 243, 273, 304, 334]

/-- `LeapYear` (lib:116-127, pyslet:52-65). -/
def leapYear (y : Int) : Bool :=
  if y % 4 ≠ 0 then false
  else if y % 100 ≠ 0 then true
  else if y % 400 ≠ 0 then false
  else true

/-- `DayOfWeek` (lib:129-138, pyslet:67-76): 1 is Monday. -/
def dayOfWeek (year month day : Int) : Int :=
  let num := year * 365
  let num := num + year / 4 + 1
  let num := num - (year / 100 + 1)
  let num := num + year / 400 + 1
  let num := if month < 3 && leapYear year then num - 1 else num
  (num + monthOffsets[(month - 1).toNat]! + day + 4) % 7 + 1

/-- `WeekCount` (lib:140-150, pyslet:78-88). -/
def weekCount (year : Int) : Int :=
  let dow := dayOfWeek year 1 1
  if dow = 4 then 53
  else if dow = 3 && leapYear year then 53
  else 52

/-- A complete date: the attributes `century`, `year` (0 to 99), `month`, `day` of `ISODate` (lib:186) and of a pyslet
`Date` in calendar form (pyslet:194-198). -/
structure Date where
  century : Int
  year : Int
  month : Int
  day : Int
deriving DecidableEq, Repr

/-- `century*100+year`, as used throughout. -/
def Date.absYear (d : Date) : Int := d.century * 100 + d.year

/-- `ISODate.GetOrdinal` (lib:417-428); `Date.GetOrdinalDay` (pyslet:357-371).  The slice `mSizes[:month-1]` is
modelled for `month ≥ 1`. -/
def getOrdinal (d : Date) : Int :=
  ((monthSizes (leapYear d.absYear)).take (d.month - 1).toNat).foldl (· + ·) d.day

/-- The loop `for m in mSizes` of `SetOrdinal` (lib:452-459, pyslet:349-355). -/
def monthLoop : List Int → Int → Int → Int × Int
  | [], month, day => (month, day)
  | m :: ms, month, day => if day > m then monthLoop ms (month + 1) (day - m) else (month, day)

/-- `ISODate.SetOrdinal` with all components given (lib:430-463).  `ISOInvalidDateError` and `ISOBadOrdinalDateError`
are `valueError` here. -/
def setOrdinal (century year ordinalDay : Int) : Except Err Date :=
  if century < 0 ∨ century > 99 ∨ year < 0 ∨ year > 99 then .error .valueError
  else
    let md := monthLoop (monthSizes (leapYear (century * 100 + year))) 1 ordinalDay
    if md.2 < 1 ∨ md.1 > 12 then .error .valueError
    else .ok { century := century, year := year, month := md.1, day := md.2 }

/-- `GetAbsoluteDay` (lib:375-380, pyslet:242-247). -/
def getAbsoluteDay (d : Date) : Int :=
  let absYear := d.century * 100 + d.year - 1
  absYear / 4 - absYear / 100 + absYear / 400 + absYear * 365 + getOrdinal d

/-- The computation of year and ordinal day in `SetAbsoluteDay` (lib:382-411) and `_SetFromAbsoluteDay`
(pyslet:211-240). -/
def absoluteToOrdinal (absDay : Int) : Int × Int :=
  let absDay := absDay - 1
  let absYear := 400 * (absDay / 146097)
  let absDay := absDay % 146097
  let yd :=
    if absDay = 146097 - 1 then (absYear + 399, (365 : Int))
    else
      let absYear := absYear + 100 * (absDay / 36524)
      let absDay := absDay % 36524
      let absYear := absYear + 4 * (absDay / 1461)
      let absDay := absDay % 1461
      if absDay = 1461 - 1 then (absYear + 3, 365)
      else (absYear + absDay / 365, absDay % 365)
  (yd.1 + 1, yd.2 + 1)

/-- `ISODate.SetAbsoluteDay` (lib:382-411). -/
def setAbsoluteDay (absDay : Int) : Except Err Date :=
  let r := absoluteToOrdinal absDay
  setOrdinal (r.1 / 100) (r.1 % 100) r.2

/-- `ISODate.AddAbsoluteDays` (lib:413-415). -/
def addAbsoluteDays (d : Date) (days : Int) : Except Err Date :=
  if days ≠ 0 then setAbsoluteDay (getAbsoluteDay d + days) else .ok d

/-- `ISODate.Legal` for a complete date (lib:212-233). -/
def legal (d : Date) : Bool :=
  if d.century < 0 ∨ d.century > 99 then false
  else if d.year < 0 ∨ d.year > 99 ∨ (d.year = 0 ∧ d.century = 0) then false
  else if d.month < 1 ∨ d.month > 12 then false
  else decide (d.day ≥ 1 ∧ d.day ≤ (monthSizes (leapYear (d.century * 100 + d.year)))[(d.month - 1).toNat]!)

/-- `ISODate.__cmp__` for complete dates (lib:345-365); `Date.__cmp__` (pyslet:920-930). -/
def cmp (a b : Date) : Int :=
  if a.century = b.century then
    if a.year = b.year then
      if a.month = b.month then
        if a.day = b.day then 0 else if a.day < b.day then -1 else 1
      else if a.month < b.month then -1 else 1
    else if a.year < b.year then -1 else 1
  else if a.century < b.century then -1 else 1

/-- `ISODate.GetWeekday` (lib:465-490): calendar week year, week, day of the week.  `Date.GetWeekDay` (pyslet:494-520)
computes the same numbers. -/
def getWeekday (d : Date) : Int × Int × Int :=
  let absYear := d.century * 100 + d.year
  let absYearLength := 365 + (if leapYear absYear then 1 else 0)
  let ordinal := getOrdinal d
  let dow := dayOfWeek absYear d.month d.day
  let thursday := ordinal + 4 - dow
  if thursday < 1 then (absYear - 1, weekCount (absYear - 1), dow)
  else if thursday > absYearLength then (absYear + 1, 1, dow)
  else
    let yearBase := 5 - dayOfWeek absYear 1 4
    (absYear, (ordinal - yearBase) / 7 + 1, dow)

/-- The conversion of a week date to an ordinal date in `ISODate.SetWeekday` (lib:546-562). -/
def weekToOrdinal (absYear week day : Int) : Except Err (Int × Int) :=
  let ordinalDay := 4 - dayOfWeek absYear 1 4 + (week - 1) * 7 + day
  if ordinalDay < 1 then
    if absYear = 0 then .error .valueError
    else .ok (absYear - 1, ordinalDay + (if leapYear (absYear - 1) then 366 else 365))
  else
    let absYearLength := 365 + (if leapYear absYear then 1 else 0)
    if ordinalDay > absYearLength then
      if absYear = 9999 then .error .valueError
      else .ok (absYear + 1, ordinalDay - absYearLength)
    else .ok (absYear, ordinalDay)

/-- `ISODate.SetWeekday` with all components given (lib:545-563). -/
def setWeekday (century decade year week day : Int) : Except Err Date :=
  weekToOrdinal (century * 100 + decade * 10 + year) week day >>= fun r => setOrdinal (r.1 / 100) (r.1 % 100) r.2

/-! ## pyslet dates -/

/-- `Date.LeapYear` (pyslet:854-870), on the two-digit year and the century. -/
def pLeapYear (century year : Int) : Bool :=
  if year % 4 ≠ 0 then false
  else if year ≠ 0 then true
  else if century % 4 ≠ 0 then false
  else true

/-- `Date._CheckDate` for a complete calendar date (pyslet:822-852). -/
def pCheck (d : Date) : Except Err Date :=
  if d.century < 0 ∨ d.century > 99 then .error .valueError
  else if d.year < 0 ∨ d.year > 99 then .error .valueError
  else if d.year = 0 ∧ d.century = 0 then .error .valueError
  else if d.month < 1 ∨ d.month > 12 then .error .valueError
  else if d.day < 1 ∨ d.day > (monthSizes (leapYear (d.century * 100 + d.year)))[(d.month - 1).toNat]! then
    .error .valueError
  else .ok d

/-- `Date._SetFromOrdinalDay` with century and year given (pyslet:342-355). -/
def pFromOrdinal (century year ordinalDay : Int) : Date :=
  let md := monthLoop (monthSizes (pLeapYear century year)) 1 ordinalDay
  { century := century, year := year, month := md.1, day := md.2 }

/-- `Date()`: the origin (pyslet:190-198). -/
def origin : Date := { century := 0, year := 1, month := 1, day := 1 }

/-- `Date(absoluteDay=n)` (pyslet:184-201): zero is false in Python, so it counts as not given. -/
def pFromAbsoluteDay (absDay : Int) : Except Err Date :=
  if absDay ≠ 0 then
    let r := absoluteToOrdinal absDay
    pCheck (pFromOrdinal (r.1 / 100) (r.1 % 100) r.2)
  else pCheck origin

/-- `Date.Offset` of a complete date (pyslet:544-564). -/
def pOffset (self : Date) (centuries years months weeks days : Int) : Except Err Date :=
  (if days ≠ 0 ∨ weeks ≠ 0 then pFromAbsoluteDay (getAbsoluteDay self + (days + 7 * weeks)) else .ok self) >>= fun d =>
  if months ≠ 0 ∨ years ≠ 0 ∨ centuries ≠ 0 then
    let day := self.day
    let month := d.month + months
    let ym := if month > 12 then (years + (month - 1) / 12, (month - 1) % 12 + 1) else (years, month)
    let year := d.year + ym.1
    let cy := if year > 99 then (centuries + year / 100, year % 100) else (centuries, year)
    pCheck { century := d.century + cy.1, year := cy.2, month := ym.2, day := day }
  else .ok d

/-- `Date.FromJulian` (pyslet:773-784). -/
def fromJulian (year month day : Int) : Except Err Date :=
  let mSizes := monthSizes (year % 4 = 0)
  let year := year - 1
  let day := (mSizes.take (month - 1).toNat).foldl (· + ·) day
  pFromAbsoluteDay (year / 4 + year * 365 + day - 2)

/-- `Date.GetJulianDay` (pyslet:786-820): year, month, day. -/
def getJulianDay (d : Date) : Int × Int × Int :=
  let day := getAbsoluteDay d + 1
  let year := 4 * (day / 1461)
  let day := day % 1461
  let yd := if day = 1461 - 1 then (year + 3, (365 : Int)) else (year + day / 365, day % 365)
  let year := yd.1 + 1
  let day := yd.2 + 1
  let md := monthLoop (monthSizes (year % 4 = 0)) 1 day
  (year, md.1, md.2)

/-! ## pyslet times -/

/-- A complete pyslet `Time` with whole seconds (pyslet:1083-1087); `zone` is `zDirection`, `zOffset`. -/
structure Time where
  hour : Int
  minute : Int
  second : Int
  zone : Option (Int × Int)
deriving DecidableEq, Repr

/-- `Time._CheckTime` (pyslet:1686-1712). -/
def checkTime (t : Time) : Except Err Time :=
  (match t.zone with
   | some (dir, off) =>
     if dir < -1 ∨ dir > 1 then .error .valueError
     else if dir ≠ 0 ∧ off ≥ 1440 then .error .valueError
     else .ok ()
   | none => .ok ()) >>= fun _ =>
  if t.hour < 0 ∨ t.hour > 24 then .error .valueError
  else if t.hour = 24 ∧ (t.minute > 0 ∨ t.second > 0) then .error .valueError
  else if t.minute < 0 ∨ t.minute > 59 then .error .valueError
  else if t.second < 0 ∨ t.second ≥ 61 then .error .valueError
  else .ok t

/-- `Time.GetTotalSeconds` (pyslet:1109-1117). -/
def totalSeconds (t : Time) : Int :=
  if t.second = 60 then 59 + t.minute * 60 + t.hour * 3600 else t.second + t.minute * 60 + t.hour * 3600

/-- `Time.GetZoneOffset` (pyslet:1152-1159). -/
def zoneOffset (t : Time) : Option Int := t.zone.map fun z => z.1 * z.2

/-- `Time.GetZone3` followed by the constructor, which copies the zone (pyslet:1161-1175, 1119-1133). -/
def copyZone (t : Time) : Option (Int × Int) :=
  t.zone.map fun z => if z.1 = 0 then (0, 0) else (z.1, z.2 / 60 * 60 + z.2 % 60)

/-- `Time.Offset` for whole numbers (pyslet:1254-1312): the new time and the day overflow. -/
def timeOffset (t : Time) (hours minutes seconds : Int) : Except Err (Time × Int) :=
  let s := if seconds ≠ 0 then (minutes + (t.second + seconds) / 60, (t.second + seconds) % 60) else (minutes, t.second)
  let m := if s.1 ≠ 0 then (hours + (t.minute + s.1) / 60, (t.minute + s.1) % 60) else (hours, t.minute)
  let h := if m.1 ≠ 0 then ((t.hour + m.1) / 24, (t.hour + m.1) % 24) else (0, t.hour)
  checkTime { hour := h.2, minute := m.2, second := s.2, zone := copyZone t } >>= fun r => .ok (r, h.1)

/-- `Time.ShiftZone` for a complete time (pyslet:1321-1364). -/
def shiftZone (t : Time) (zDirection zHour zMinute : Int) : Except Err (Time × Int) :=
  match zoneOffset t with
  | none => .error .valueError
  | some old =>
    let zShift := zDirection * (zHour * 60 + zMinute) - old
    let minute := t.minute + zShift % 60
    let mh := if minute > 59 then (minute - 60, t.hour + 1) else if minute < 0 then (minute + 60, t.hour - 1)
      else (minute, t.hour)
    let hour := mh.2 + zShift / 60
    let ho := if hour > 23 then (hour - 24, (1 : Int)) else if hour < 0 then (hour + 24, -1) else (hour, 0)
    checkTime { hour := ho.1, minute := mh.1, second := t.second,
                zone := some (if zDirection = 0 then (0, 0) else (zDirection, zHour * 60 + zMinute)) } >>= fun r =>
    .ok (r, ho.2)

/-- A pyslet `TimePoint` (pyslet:2041-2073). -/
structure TimePoint where
  date : Date
  time : Time
deriving DecidableEq, Repr

/-- `TimePoint.__init__` with `_CheckTimePoint` (pyslet:2057-2068, 2276-2280). -/
def mkTimePoint (d : Date) (t : Time) : Except Err TimePoint :=
  pCheck d >>= fun d => checkTime t >>= fun t => .ok { date := d, time := t }

/-- `TimePoint.ShiftZone` (pyslet:2107-2115). -/
def tpShiftZone (p : TimePoint) (zDirection zHour zMinute : Int) : Except Err TimePoint :=
  shiftZone p.time zDirection zHour zMinute >>= fun r =>
  (if r.2 ≠ 0 then pOffset p.date 0 0 0 0 r.2 else .ok p.date) >>= fun d => mkTimePoint d r.1

/-- `Time.__cmp__` for times in the same zone (pyslet:1747-1752). -/
def timeCmp (a b : Time) : Int :=
  if a.hour < b.hour then -1 else if b.hour < a.hour then 1
  else if a.minute < b.minute then -1 else if b.minute < a.minute then 1
  else if a.second < b.second then -1 else if b.second < a.second then 1 else 0

/-- `TimePoint.__cmp__` (pyslet:2289-2311). -/
def tpCmp (a b : TimePoint) : Except Err Int :=
  let z1 := zoneOffset a.time
  let z2 := zoneOffset b.time
  (if z1 ≠ z2 then
    match z1, z2, copyZone a.time with
    | some _, some _, some (dir, off) => tpShiftZone b dir (off / 60) (off % 60)
    | _, _, _ => .error .valueError
   else .ok b) >>= fun b =>
  let r := cmp a.date b.date
  if r ≠ 0 then .ok r else .ok (timeCmp a.time b.time)

/-- `TimePoint.FromUnixTime` for a whole number of seconds (pyslet:2230-2240). -/
def fromUnixTime (unixTime : Int) : Except Err TimePoint :=
  timeOffset { hour := 0, minute := 0, second := 0, zone := none } 0 0 unixTime >>= fun r =>
  pOffset { century := 19, year := 70, month := 1, day := 1 } 0 0 0 0 r.2 >>= fun d => mkTimePoint d r.1

/-! ## lib time zones -/

/-- `zoneStr[:2].isdigit()` and friends: non-empty and all digits. -/
def allDigits (s : Str) : Bool := s ≠ [] && s.all Py.isDigit

/-- `ReadISOTimeZone` (lib:152-171).  `none` is Python's `None`.  `ISOTimeZoneSyntaxError` is `valueError`. -/
def readZone (zoneStr : Str) : Except Err (Option Int) :=
  if zoneStr = ['Z'] then .ok (some 0)
  else
    match zoneStr with
    | [] => .ok none
    | _zSign :: zoneStr =>
      (if zoneStr.length ≥ 2 && allDigits (zoneStr.take 2) then
        .ok ((Py.digitsVal 10 (zoneStr.take 2) : Int) * 60, zoneStr.drop 2)
       else .error .valueError) >>= fun (zone, zoneStr) =>
      let zoneStr := if zoneStr.length = 3 ∧ zoneStr.head? = some ':' then zoneStr.drop 1 else zoneStr
      if zoneStr.length = 2 && allDigits zoneStr then .ok (some (zone + Py.digitsVal 10 zoneStr))
      else if zoneStr ≠ [] then .error .valueError
      else .ok (some zone)

/-- `string.zfill(str(n),2)`. -/
def zfill2 (n : Int) : Str :=
  let s := Py.strNat n.toNat
  if s.length < 2 then '0' :: s else s

/-- `ISOTimePoint.WriteISOTimeZone` (lib:1562-1579), for the zone attribute. -/
def writeZone (zone : Option Int) (basic useZ hideMins : Bool) : Str :=
  match zone with
  | none => []
  | some z =>
    if z = 0 ∧ useZ then ['Z']
    else
      let sm := if z ≥ 0 then ('+', z) else ('-', -z)
      [sm.1] ++ zfill2 (sm.2 / 60) ++
        (if hideMins then [] else (if basic then [] else [':']) ++ zfill2 (sm.2 % 60))

end Verif.Cal
