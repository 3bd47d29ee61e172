import Verif.Model.Calendar

/-!
# Literals of OData URIs

Models the reader of identifiers and literals of `pyslet/pyslet/odata2/core.py` (cited as *core*), the reader of numbers,
dates and binary data of `pyslet/pyslet/odata2/csdl.py` (cited as *csdl*), both on top of `BasicParser` of
`pyslet/pyslet/unicode5.py` (cited as *unicode5*), and the writer of literals.

The position of the parser is the rest of the text: `SetPos(savePos)` goes on with an earlier rest.  Texts are Unicode
strings (`raw` is `False`).
-/

namespace Verif.OData

open Verif

/-- The exceptions the readers and the evaluation of expressions raise; `outOfFuel` is no exception but the end of the
recursion budget of the model (it is proved not to occur). -/
inductive Fault where
  | valueError
  | typeError
  | keyError
  | indexError
  | attributeError
  | evaluationError
  | outOfFuel
deriving DecidableEq, Repr

/-- What is left open: the Unicode classes of `ParseSimpleIdentifier` (core:1361-1367), of which only the ASCII part is
fixed, and which texts are dates with a time zone (csdl:1180-1196). -/
structure Tables where
  /-- categories `L` and `Nl` -/
  start : Char → Bool
  /-- the same with `Nd`, `Mn`, `Mc`, `Pc` and `Cf` -/
  more : Char → Bool
  /-- `DateTimeOffsetValue.SetFromLiteral` does not raise `ValueError` -/
  offset : Str → Bool
  start_more : ∀ c, start c = true → more c = true
  start_ascii : ∀ c, c.toNat < 128 → start c = Py.isLetter c
  more_ascii : ∀ c, c.toNat < 128 → more c = (Py.isLetter c || Py.isDigit c || c == '_')

/-! ## Reading -/

/-- `Parse` with a string of one character (unicode5:661-670): the rest, or nothing. -/
def parseChar (c : Char) : Str → Option Str
  | d :: t => if d = c then some t else none
  | [] => none

/-- `Require` with a string of one character (unicode5:687-696). -/
def requireChar (c : Char) (s : Str) : Except Fault Str :=
  match parseChar c s with
  | some t => .ok t
  | none => .error .valueError

/-- `ParseInsensitive` (unicode5:714-733). -/
def parseInsensitive (low : Str) (s : Str) : Option Str :=
  if s ≠ [] ∧ Py.lower (s.take low.length) = low then some (s.drop low.length) else none

/-- `ParseOne` (unicode5:698-712). -/
def parseOne (p : Char → Bool) : Str → Option (Char × Str)
  | c :: t => if p c then some (c, t) else none
  | [] => none

/-- `ParseDigits(0)` (unicode5:743-760): as many digits as there are. -/
def parseDigits (s : Str) : Str × Str := (s.takeWhile Py.isDigit, s.dropWhile Py.isDigit)

/-- The loop of `ParseDigits` and `ParseHexDigits` with a maximum (unicode5:751-756, 799-804). -/
def upTo (p : Char → Bool) : Nat → Str → Str × Str
  | 0, s => ([], s)
  | _ + 1, [] => ([], [])
  | n + 1, c :: t => if p c then ((c :: (upTo p n t).1), (upTo p n t).2) else ([], c :: t)

/-- `ParseDigits(k,k)` and `ParseHexDigits(k,k)` (unicode5:743-760, 791-808). -/
def exactly (p : Char → Bool) (k : Nat) (s : Str) : Option (Str × Str) :=
  if (upTo p k s).1.length = k then some (upTo p k s) else none

/-- `ParseInteger` with bounds and, if there is one, a maximum number of digits (unicode5:762-781). -/
def parseInteger (min max : Nat) (maxDigits : Option Nat) (s : Str) : Option (Nat × Str) :=
  let d := match maxDigits with
    | some k => upTo Py.isDigit k s
    | none => parseDigits s
  if d.1 = [] then none
  else
    let n := Py.digitsVal 10 d.1
    if n < min ∨ n > max then none else some (n, d.2)

/-- `ParseSimpleIdentifier` (core:1368-1383): `true` while the first character of a segment is expected. -/
def identLoop (T : Tables) : Bool → Str → Option (Str × Str)
  | true, [] => none
  | true, c :: t => if T.start c then (identLoop T false t).map fun r => (c :: r.1, r.2) else none
  | false, [] => some ([], [])
  | false, c :: t =>
    if T.more c then (identLoop T false t).map fun r => (c :: r.1, r.2)
    else if c = '.' then (identLoop T true t).map fun r => (c :: r.1, r.2)
    else some ([], c :: t)

/-- `ParseSimpleIdentifier` (core:1338-1383). -/
def simpleIdentifier (T : Tables) (s : Str) : Option (Str × Str) := identLoop T true s

/-- `ParseWSP` (core:1234-1246): the white space (`None` if empty) and the rest. -/
def isWsp (c : Char) : Bool := c == ' ' || c == '\t'

/-- `ParseWSP` where the result is not looked at (core:1234-1246). -/
def wsp (s : Str) : Str := s.dropWhile isWsp

/-! ## Numbers -/

/-- The named tuple `Numeric` (csdl:543): `special` is `lDigits` being `'inf'` (`false`) or `'nan'` (`true`); the
exponent carries whether its sign is a minus. -/
structure Numeric where
  neg : Bool
  special : Option Bool
  l : Str
  r : Option Str
  e : Option (Bool × Str)
deriving DecidableEq, Repr

/-- The part of `ParseNumericLiteral` after the point (csdl:683-688). -/
def parseExponent (s : Str) : Option (Bool × Str) × Str :=
  match parseOne (fun c => c == 'e' || c == 'E') s with
  | none => (none, s)
  | some (_, s) =>
    match parseChar '-' s with
    | some s => (some (true, (parseDigits s).1), (parseDigits s).2)
    | none => (some (false, (parseDigits s).1), (parseDigits s).2)

/-- The point and the digits after it (csdl:678-679). -/
def parsePoint (s : Str) : Option Str × Str :=
  match parseChar '.' s with
  | some s => (some (parseDigits s).1, (parseDigits s).2)
  | none => (none, s)

/-- The part of `ParseNumericLiteral` after the sign and without `inf` and `nan` (csdl:677-688). -/
def parseUnsigned (neg : Bool) (s : Str) : Option (Numeric × Str) :=
  let l := (parseDigits s).1
  let p := parsePoint (parseDigits s).2
  if l = [] ∧ p.1.getD [] = [] then none
  else some ({ neg := neg, special := none, l := l, r := p.1, e := (parseExponent p.2).1 }, (parseExponent p.2).2)

/-- The sign (csdl:669-671). -/
def parseSign (s : Str) : Bool × Str :=
  match parseChar '-' s with
  | some s => (true, s)
  | none => (false, s)

/-- `ParseNumericLiteral` (csdl:646-689). -/
def parseNumeric (s : Str) : Option (Numeric × Str) :=
  let p := parseSign s
  match parseInsensitive ['i', 'n', 'f'] p.2 with
  | some s => some ({ neg := p.1, special := some false, l := [], r := none, e := none }, s)
  | none =>
    match parseInsensitive ['n', 'a', 'n'] p.2 with
    | some s => some ({ neg := p.1, special := some true, l := [], r := none, e := none }, s)
    | none => parseUnsigned p.1 p.2

/-- A Python float: not a number, infinite, or `±m·10^e` (exact: the rounding of `float(...)` is not modelled). -/
inductive Flt where
  | nan
  | inf (neg : Bool)
  | fin (neg : Bool) (m : Nat) (e : Int)
deriving DecidableEq, Repr

/-- Values of literals (csdl:822-848): the type code is the constructor.  A Decimal is `±c·10^(-scale)`; the seconds of a
time are whole seconds and the digits of the fraction. -/
inductive Lit where
  | null
  | bool (b : Bool)
  | int32 (n : Int)
  | int64 (n : Int)
  | decimal (neg : Bool) (c : Nat) (scale : Nat)
  | double (x : Flt)
  | single (x : Flt)
  | string (s : Str)
  | binary (bytes : List Nat)
  | guid (n : Nat)
  | dateTime (date : Cal.Date) (hour minute second : Nat) (frac : Str)
  | time (hour minute second : Nat) (frac : Str)
  | offset (text : Str)
deriving DecidableEq, Repr

/-- The value of the digits with their sign (csdl:1529, 1552). -/
def Numeric.int (n : Numeric) : Int := if n.neg then -(Py.digitsVal 10 n.l : Int) else Py.digitsVal 10 n.l

/-- `Int32Value.SetFromNumericLiteral` and `Int64Value.SetFromNumericLiteral` with the test of `SetFromValue`
(csdl:1522-1540, 1545-1563). -/
def setInteger (digits bits : Nat) (n : Numeric) : Except Fault Int :=
  if n.special.isSome ∨ n.l = [] ∨ n.l.length > digits ∨ n.r.isSome ∨ n.e.isSome then .error .valueError
  else if n.int < -(2 ^ bits : Nat) ∨ n.int > (2 ^ bits : Nat) - 1 then .error .valueError
  else .ok n.int

/-- `DecimalValue.SetFromNumericLiteral` (csdl:1291-1301): the test of `SetFromValue` (csdl:1313) cannot fail, `Max` being
rounded to `10^29`. -/
def setDecimal (n : Numeric) : Except Fault Lit :=
  if n.special.isSome ∨ n.l.length > 29 ∨ (n.r.getD []).length > 29 ∨ n.r = some [] ∨ n.e.isSome then .error .valueError
  else .ok (.decimal n.neg (Py.digitsVal 10 (n.l ++ n.r.getD [])) (n.r.getD []).length)

/-- The exact value of the text of a number that is not special. -/
def Numeric.flt (n : Numeric) : Flt :=
  let e : Int := match n.e with
    | none => 0
    | some (neg, d) => if neg then -(Py.digitsVal 10 d : Int) else Py.digitsVal 10 d
  .fin n.neg (Py.digitsVal 10 (n.l ++ n.r.getD [])) (e - (n.r.getD []).length)

/-- `m·10^e > bound`. -/
def exceeds (m : Nat) (e : Int) (bound : Nat) : Bool :=
  if e ≥ 0 then m * 10 ^ e.toNat > bound else m > bound * 10 ^ (-e).toNat

/-- `float(dStr)`: what is too large for a double is infinite. -/
def toDouble : Flt → Flt
  | .fin neg m e => if exceeds m e (2 ^ 1024 - 2 ^ 970) then .inf neg else .fin neg m e
  | x => x

/-- The value of `inf`, `-inf` and `nan` (csdl:1368-1376, 1421-1429): `nan` must not have a sign. -/
def setSpecial (neg nan : Bool) : Except Fault Flt :=
  if nan then (if neg then .error .valueError else .ok .nan) else .ok (.inf neg)

/-- The test of the digits of an exponent (csdl:1384-1388, 1441-1445). -/
def badExponent (max : Nat) (n : Numeric) : Bool :=
  match n.e with
  | none => false
  | some (_, d) => d == [] || d.length > max || n.l == []

/-- `DoubleValue.SetFromNumericLiteral` (csdl:1366-1389). -/
def setDouble (n : Numeric) : Except Fault Lit :=
  match n.special with
  | some nan => (setSpecial n.neg nan).map .double
  | none =>
    if (n.r = none ∨ n.e.isSome) ∧ (n.l.length + (n.r.getD []).length > 17 ∨ badExponent 3 n) then .error .valueError
    else .ok (.double (toDouble n.flt))

/-- `FloatValue.SetFromValue` for a Single (csdl:1343-1350): infinite numbers pass. -/
def singleRange : Flt → Except Fault Lit
  | .fin neg m e => if exceeds m e ((2 ^ 24 - 1) * 2 ^ 104) then .error .valueError else .ok (.single (.fin neg m e))
  | x => .ok (.single x)

/-- `SingleValue.SetFromNumericLiteral` (csdl:1418-1446): an exponent without digits makes `float` raise `ValueError` also
where it is not tested. -/
def setSingle (n : Numeric) : Except Fault Lit :=
  match n.special with
  | some nan => (setSpecial n.neg nan).map .single
  | none =>
    if n.r = none then
      if n.l.length > 8 then .error .valueError
      else if (match n.e with | some (_, d) => d == [] | none => false) then .error .valueError
      else singleRange (toDouble n.flt)
    else if n.e.isSome ∧ (n.l.length + (n.r.getD []).length > 9 ∨ badExponent 2 n) then .error .valueError
    else singleRange (toDouble n.flt)

/-- The forms of numbers of `ParseURILiteral` (core:1430-1455). -/
def parseNumber (s : Str) : Except Fault (Option Lit × Str) :=
  match parseNumeric s with
  | none => .ok (none, s)
  | some (n, t) =>
    match t with
    | c :: u =>
      if c = 'D' ∨ c = 'd' then (setDouble n).map fun v => (some v, u)
      else if c = 'F' ∨ c = 'f' then (setSingle n).map fun v => (some v, u)
      else if c = 'M' ∨ c = 'm' then (setDecimal n).map fun v => (some v, u)
      else if c = 'L' ∨ c = 'l' then (setInteger 19 63 n).map fun v => (some (.int64 v), u)
      else (setInteger 10 31 n).map fun v => (some (.int32 v), t)
    | [] => (setInteger 10 31 n).map fun v => (some (.int32 v), t)

/-! ## Other literals -/

/-- `ParseStringURILiteral` after the opening quote (core:1389-1405): a doubled quote stands for one. -/
def stringLoop : Str → Except Fault (Str × Str)
  | [] => .error .valueError
  | '\'' :: '\'' :: t => (stringLoop t).map fun r => ('\'' :: r.1, r.2)
  | '\'' :: t => .ok ([], t)
  | c :: t => (stringLoop t).map fun r => (c :: r.1, r.2)

/-- The bytes of pairs of digits (csdl:561-566). -/
def bytesOf : Str → Except Fault (List Nat)
  | [] => .ok []
  | [_] => .error .valueError
  | a :: b :: t => (bytesOf t).map fun r => Py.digitsVal 16 [a, b] :: r

/-- The seconds of a time (csdl:600-606, 708-714): the whole seconds and the digits of the fraction.  `none` stands for
the `ValueError` that is caught; a point without digits makes `"0."+nano` raise `TypeError`, which is not. -/
def parseSeconds (s : Str) : Except Fault (Option ((Nat × Str) × Str)) :=
  match parseChar ':' s with
  | none => .ok (some ((0, []), s))
  | some s =>
    match parseInteger 0 60 (some 2) s with
    | none => .ok none
    | some (n, s) =>
      match parseChar '.' s with
      | none => .ok (some ((n, []), s))
      | some s =>
        if (upTo Py.isDigit 7 s).1 = [] then .error .typeError
        else .ok (some ((n, (upTo Py.isDigit 7 s).1), (upTo Py.isDigit 7 s).2))

/-- The clock of a time (csdl:596-606, 704-714). -/
def parseClock (s : Str) : Except Fault (Option ((Nat × Nat × Nat × Str) × Str)) :=
  match parseInteger 0 24 none s with
  | none => .ok none
  | some (hour, s) =>
    match parseChar ':' s with
    | none => .ok none
    | some s =>
      match parseInteger 0 60 (some 2) s with
      | none => .ok none
      | some (minute, s) =>
        (parseSeconds s).map fun r => r.map fun ((second, frac), s) => ((hour, minute, second, frac), s)

/-- The calendar date of a time point (csdl:591-595). -/
def parseCalendar (s : Str) : Option ((Nat × Nat × Nat) × Str) := do
  let (year, s) ← exactly Py.isDigit 4 s
  let s ← parseChar '-' s
  let (month, s) ← parseInteger 1 12 none s
  let s ← parseChar '-' s
  let (day, s) ← parseInteger 1 31 (some 2) s
  let s ← parseChar 'T' s
  return ((Py.digitsVal 10 year, month, day), s)

/-- The test of `iso8601.Time` (pyslet/pyslet/iso8601.py:1686-1712): a fraction counts as more than no seconds. -/
def clockOk (hour minute second : Nat) (frac : Str) : Bool :=
  match Cal.checkTime { hour := hour, minute := minute, second := second, zone := none } with
  | .error _ => false
  | .ok _ => !(hour == 24 && frac.any (· != '0'))

/-- `ParseDateTimeLiteral` with `RequireProduction` (csdl:585-619, core:1476). -/
def parseDateTime (s : Str) : Except Fault (Lit × Str) :=
  match parseCalendar s with
  | none => .error .valueError
  | some ((year, month, day), s) =>
    (parseClock s).bind fun r =>
    match r with
    | none => .error .valueError
    | some ((hour, minute, second, frac), s) =>
      match Cal.pCheck { century := year / 100, year := year % 100, month := month, day := day } with
      | .error _ => .error .valueError
      | .ok d => if clockOk hour minute second frac then .ok (.dateTime d hour minute second frac, s) else .error .valueError

/-- `ParseTimeLiteral` with `RequireProduction` (csdl:691-718, core:1484). -/
def parseTime (s : Str) : Except Fault (Lit × Str) :=
  (parseClock s).bind fun r =>
  match r with
  | none => .error .valueError
  | some ((hour, minute, second, frac), s) =>
    if clockOk hour minute second frac then .ok (.time hour minute second frac, s) else .error .valueError

/-- `RequireProduction(self.ParseHexDigits(k,k),"guid")` (core:1515). -/
def requireHex (k : Nat) (s : Str) : Except Fault (Str × Str) :=
  match exactly Py.isHex k s with
  | some r => .ok r
  | none => .error .valueError

/-- A GUID after its opening quote (core:1514-1530): in the form with four groups `FFFF` is put before the fourth. -/
def parseGuid (s : Str) : Except Fault (Lit × Str) := do
  let (a, s) ← requireHex 8 s
  let s ← requireChar '-' s
  let (b, s) ← requireHex 4 s
  let s ← requireChar '-' s
  let (c, s) ← requireHex 4 s
  let s ← requireChar '-' s
  let (d, s) ← requireHex 4 s
  match parseChar '-' s with
  | some s =>
    let (e, s) ← requireHex 12 s
    return (.guid (Py.digitsVal 16 (a ++ b ++ c ++ d ++ e)), s)
  | none =>
    let (e, s) ← requireHex 8 s
    return (.guid (Py.digitsVal 16 (a ++ b ++ c ++ ['F', 'F', 'F', 'F'] ++ d ++ e)), s)

/-- A literal in quotes after its name: the quotes are required (core:1472-1529). -/
def quoted (p : Str → Except Fault (Lit × Str)) (s : Str) : Except Fault (Option Lit × Str) := do
  let s ← requireChar '\'' s
  let (v, s) ← p s
  let s ← requireChar '\'' s
  return (some v, s)

/-- A date with a zone in its quotes (core:1464-1471): `ParseUntil` goes to the closing quote or the end. -/
def parseOffset (T : Tables) (s : Str) : Except Fault (Option Lit × Str) := do
  let s ← requireChar '\'' s
  let t := s.takeWhile (· != '\'')
  let s ← requireChar '\'' (s.dropWhile (· != '\''))
  if T.offset t then return (some (.offset t), s) else throw .valueError

/-- `ParseBinaryLiteral` (csdl:552-566). -/
def parseBinary (s : Str) : Except Fault (Lit × Str) :=
  (bytesOf (s.takeWhile Py.isHex)).map fun b => (.binary b, s.dropWhile Py.isHex)

/-- The names that begin a literal. -/
inductive Keyword where
  | null | true | false | datetimeoffset | datetime | time | binary | nand | nanf | infd | inff | guid | other
deriving DecidableEq, Repr

/-- The table of the names in lower case. -/
def keywords : List (Str × Keyword) :=
  [("null".toList, .null), ("true".toList, .true), ("false".toList, .false), ("datetimeoffset".toList, .datetimeoffset),
    ("datetime".toList, .datetime), ("time".toList, .time), ("binary".toList, .binary), ("nand".toList, .nand),
    ("nanf".toList, .nanf), ("infd".toList, .infd), ("inff".toList, .inff), ("guid".toList, .guid)]

/-- The tests of the name in `ParseURILiteral` (core:1426-1511): `X` only in upper case. -/
def keyword (name : Str) : Keyword :=
  if name = ['X'] then .binary
  else match keywords.find? (fun k => k.1 = Py.lower name) with
    | some k => k.2
    | none => .other

/-- `ParseURILiteral` once an identifier has been read (core:1420-1534): `s` is the text before it. -/
def namedLiteral (T : Tables) (s name rest : Str) : Except Fault (Option Lit × Str) :=
  match keyword name with
  | .null => .ok (some .null, rest)
  | .true => .ok (some (.bool true), rest)
  | .false => .ok (some (.bool false), rest)
  | .datetimeoffset => parseOffset T rest
  | .datetime => quoted parseDateTime rest
  | .time => quoted parseTime rest
  | .binary => quoted parseBinary rest
  | .nand => .ok (some (.double .nan), rest)
  | .nanf => .ok (some (.single .nan), rest)
  | .infd => .ok (some (.double (.inf false)), rest)
  | .inff => .ok (some (.single (.inf false)), rest)
  | .guid => quoted parseGuid rest
  | .other => .ok (none, s)

/-- `ParseURILiteral` (core:1409-1534). -/
def uriLiteral (T : Tables) (s : Str) : Except Fault (Option Lit × Str) :=
  match simpleIdentifier T s with
  | some (name, rest) => namedLiteral T s name rest
  | none =>
    match s with
    | '\'' :: t => (stringLoop t).map fun r => (some (.string r.1), r.2)
    | c :: t => if c = '-' ∨ c = '.' ∨ Py.isDigit c then parseNumber (c :: t) else .ok (none, c :: t)
    | [] => .ok (none, [])

/-- The function `ParseURILiteral` (core:1538-1549): the whole text must be the literal. -/
def parseURILiteral (T : Tables) (s : Str) : Except Fault Lit :=
  match uriLiteral T s with
  | .error e => .error e
  | .ok (some v, []) => .ok v
  | .ok _ => .error .valueError

/-! ## Writing -/

/-- `unicode(n)` for an integer (csdl:895-902). -/
def intText (n : Int) : Str := if n < 0 then '-' :: Py.strNat n.natAbs else Py.strNat n.natAbs

/-- `string.join(result.split("'"),"''")` (core:759). -/
def doubled : Str → Str
  | [] => []
  | '\'' :: t => '\'' :: '\'' :: doubled t
  | c :: t => c :: doubled t

/-- An upper-case hexadecimal digit (`"%02X"`, csdl:953). -/
def hexUpper (n : Nat) : Char := if n % 16 < 10 then Char.ofNat (48 + n % 16) else Char.ofNat (55 + n % 16)

/-- `"%02X"%ord(byte)` for every byte (csdl:945-956). -/
def bytesText (b : List Nat) : Str := b.flatMap fun n => [hexUpper (n / 16), hexUpper n]

/-- The `k` last hexadecimal digits of a number in lower case. -/
def hexText : Nat → Nat → Str
  | 0, _ => []
  | k + 1, n => hexText k (n / 16) ++ [Py.hexDigitChar n]

/-- `str(uuid)`: five groups of digits (csdl:1470-1473). -/
def guidText (n : Nat) : Str :=
  hexText 8 (n / 16 ^ 24) ++ '-' :: (hexText 4 (n / 16 ^ 20) ++ '-' :: (hexText 4 (n / 16 ^ 16) ++ '-' ::
    (hexText 4 (n / 16 ^ 12) ++ '-' :: hexText 12 n)))

/-- `"%0<k>i"%n`. -/
def zeros (k n : Nat) : Str := List.replicate (k - (Py.strNat n).length) '0' ++ Py.strNat n

/-- `Time.GetString` without decimals (csdl:1224-1233 with precision 0). -/
def clockText (hour minute second : Nat) : Str :=
  zeros 2 hour ++ ':' :: (zeros 2 minute ++ ':' :: zeros 2 second)

/-- `DecimalValue.__unicode__` (csdl:1276-1289) for at most 29 digits on each side of the point: the format `f`. -/
def decimalText (neg : Bool) (c scale : Nat) : Str :=
  let d := zeros (scale + 1) c
  (if neg then ['-'] else []) ++
    (if scale = 0 then d else d.take (d.length - scale) ++ '.' :: d.drop (d.length - scale))

/-- `unicode(x)` for the floats that have one text (csdl:895-902): the text of finite floats is not modelled. -/
def floatText (fin : Bool → Nat → Int → Str) : Flt → Str
  | .nan => "nan".toList
  | .inf neg => (if neg then "-inf".toList else "inf".toList)
  | .fin neg m e => fin neg m e

/-- `LiteralExpression.__unicode__` (core:733-760), for times of a property without precision.  `fin` is the text of finite
floats. -/
def litText (fin : Bool → Nat → Int → Str) : Lit → Str
  | .null => "null".toList
  | .bool b => if b then "true".toList else "false".toList
  | .int32 n => intText n
  | .int64 n => intText n ++ ['L']
  | .decimal neg c scale => decimalText neg c scale ++ ['M']
  | .double x => floatText fin x ++ ['D']
  | .single x => floatText fin x ++ ['F']
  | .string s => '\'' :: (doubled s ++ ['\''])
  | .binary b => 'X' :: '\'' :: (bytesText b ++ ['\''])
  | .guid n => "guid'".toList ++ guidText n ++ ['\'']
  | .dateTime d hour minute second _ =>
    "datetime'".toList ++ zeros 4 d.absYear.toNat ++ '-' :: (zeros 2 d.month.toNat ++ '-' :: (zeros 2 d.day.toNat ++ 'T' ::
      (clockText hour minute second ++ ['\''])))
  | .time hour minute second _ => "time'".toList ++ clockText hour minute second ++ ['\'']
  | .offset t => "datetimeoffset'".toList ++ t ++ ['\'']

end Verif.OData
