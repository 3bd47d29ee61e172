import Verif.Model.Calendar
import Verif.Model.XsdText

/-!
# Values and entities in JSON

Models `ReadEntityPropertyValueInJSON`, `EntityPropertyValueInJSON`, `ReadEntityCTValue`, `EntityCTValueToJSON`, `SetFromJSONObject`
and `GenerateEntityTypeInJSON` of `pyslet/pyslet/odata2/core.py` (cited as *core*), with what they use of `csdl.py` (cited as *csdl*),
`iso8601.py` (*iso*) and `server.py` (*server*).

Texts are what they stand for: Python's `json` writes and reads them and is trusted.  Floating point numbers are exact numbers, those
with a value that is not whole are known by the whole number below; times have thousandths of a second.
-/

namespace Verif.OData.Json
open Verif.Cal

/-- What a JSON text stands for.  The keys of an object are different.  `frac n` is a number between `n` and `n + 1`. -/
inductive Js where
  | null
  | bool (b : Bool)
  | int (n : Int)
  | frac (n : Int)
  | str (s : Str)
  | arr (l : List Js)
  | obj (l : List (Str × Js))

/-- The integer types that are written as numbers (core:2303). -/
inductive IntTy where
  | byte | sbyte | int16 | int32
deriving DecidableEq

/-- The smallest value (csdl:1073, 1605, 1512, 1535). -/
def IntTy.lo : IntTy → Int
  | .byte => 0
  | .sbyte => -128
  | .int16 => -32768
  | .int32 => -2147483648

/-- The largest value (csdl:1073, 1605, 1512, 1535). -/
def IntTy.hi : IntTy → Int
  | .byte => 255
  | .sbyte => 127
  | .int16 => 32767
  | .int32 => 2147483647

/-- The types whose literals are written as strings (core:2310). -/
inductive LitTy where
  | decimal | double | guid | int64 | single | time
deriving DecidableEq

/-- The simple types (csdl:1611-1627). -/
inductive Ty where
  | binary | boolean | int (t : IntTy) | dateTime | offset | lit (t : LitTy) | string
deriving DecidableEq

/-- A point in time without a zone. -/
structure Moment where
  date : Date
  hour : Int
  minute : Int
  second : Int
  milli : Int
deriving DecidableEq

/-- What a simple value holds.  `stray` is what a string value holds that was given something else (csdl:1585-1586). -/
inductive Val (V : Type) where
  | binary (b : List Nat)
  | boolean (b : Bool)
  | int (n : Int)
  | dateTime (p : Moment)
  | offset (p : Moment) (zone : Int)
  | lit (v : V)
  | string (s : Str)
  | stray (j : Js)

/-- The literals of the types that are written as strings, base64 and `unicode` of what is not a string. -/
structure Lib (V : Type) where
  b64 : List Nat → Str
  unb64 : Str → Except Err (List Nat)
  write : LitTy → V → Str
  read : LitTy → Str → Except Err V
  show_ : Js → Str

/-- `BASE_DAY` (core:2278): the first of January 1970. -/
def baseDay : Int := 719163

/-- The ticks of a point in time (core:2308; iso:1109-1117). -/
def ticks (p : Moment) : Int :=
  (getAbsoluteDay p.date - baseDay) * 86400000 +
    if p.second = 60 ∧ p.milli = 0 then (59 + p.minute * 60 + p.hour * 3600) * 1000
    else (p.second + p.minute * 60 + p.hour * 3600) * 1000 + p.milli

/-- `Time().Offset(seconds=ticks/1000.0)` (iso:1268-1312, 1686-1712): `modf` cuts towards zero, and the part it cuts off has the sign of
the number.  The result is a time and a number of days. -/
def offsetTime (t : Int) : Except Err ((Int × Int × Int × Int) × Int) :=
  let s := t.tdiv 1000
  let m := s % 60 * 1000 + t.tmod 1000
  if m < 0 then .error .valueError
  else .ok ((s / 60 / 60 % 24, s / 60 % 60, m / 1000, m % 1000), s / 60 / 60 / 24)

/-- The point in time of ticks (core:2340-2342). -/
def ofTicks (t : Int) : Except Err Moment := do
  let (c, days) ← offsetTime t
  let d ← pFromAbsoluteDay (baseDay + days)
  .ok ⟨d, c.1, c.2.1, c.2.2.1, c.2.2.2⟩

/-- The text of ticks (core:2309). -/
def dateText (t : Int) : Str := "/Date(".toList ++ Xsd.encodeInteger t ++ ")/".toList

/-- `startswith("/Date(")`, `endswith(")/")` and what is between (core:2338-2339). -/
def dateInner (s : Str) : Option Str :=
  if s.take 6 = "/Date(".toList ∧ s.drop (s.length - 2) = ")/".toList then some ((s.drop 6).take (s.length - 8)) else none

/-- `EntityPropertyValueInJSON` (core:2297-2323).  Values with an offset have no `GetZone`. -/
def writeValue {V : Type} (L : Lib V) (ty : Ty) : Option (Val V) → Except Err Js
  | none => .ok .null
  | some (.binary b) => .ok (.str (L.b64 b))
  | some (.boolean b) => .ok (.bool b)
  | some (.int n) => .ok (.int n)
  | some (.dateTime p) => .ok (.str (dateText (ticks p)))
  | some (.offset ..) => .error .attributeError
  | some (.lit v) =>
    match ty with
    | .lit t => .ok (.str (L.write t v))
    | _ => .error .valueError
  | some (.string s) => .ok (.str s)
  | some (.stray j) => .ok (.str (L.show_ j))

/-- `ReadEntityPropertyValueInJSON` (core:2325-2376) with `SetFromValue` and `SetFromLiteral` of the types (csdl:962-968, 995-1003,
1068-1077, 1508-1516, 1531-1539, 1600-1608, 1585-1586).  White space around ticks is not modelled; literals in lists and objects are
taken to fail.  Dates with an offset look for a sign in a number (core:2349-2350). -/
def readValue {V : Type} (L : Lib V) (ty : Ty) (j : Js) : Except Err (Option (Val V)) :=
  match j with
  | .null => .ok none
  | j =>
    match ty with
    | .binary =>
      match j with
      | .str s => (L.unb64 s).map fun b => some (.binary b)
      | _ => .error .typeError
    | .boolean =>
      match j with
      | .bool b => .ok (some (.boolean b))
      | .int n => .ok (some (.boolean (n ≠ 0)))
      | .frac _ => .ok (some (.boolean true))
      | _ => .error .typeError
    | .int t =>
      match j with
      | .int n => if n < t.lo ∨ n > t.hi then .error .valueError else .ok (some (.int n))
      | .frac n => if n < t.lo ∨ n ≥ t.hi then .error .valueError else .ok (some (.int (if n < 0 then n + 1 else n)))
      | _ => .error .typeError
    | .dateTime =>
      match j with
      | .str s =>
        match dateInner s with
        | some x => do
          let t ← Xsd.pyInt x
          let p ← ofTicks t
          .ok (some (.dateTime p))
        | none => .error .valueError
      | _ => .error .attributeError
    | .offset =>
      match j with
      | .str s =>
        match dateInner s with
        | some x => do
          let _ ← Xsd.pyInt x
          .error .typeError
        | none => .error .valueError
      | _ => .error .attributeError
    | .lit t =>
      match j with
      | .str s => (L.read t s).map fun v => some (.lit v)
      | _ => .error .typeError
    | .string =>
      match j with
      | .str s => .ok (some (.string s))
      | j => .ok (some (.stray j))

/-- A value of a property: a simple value, or a complex one with its properties (csdl:1663-1704). -/
inductive Data (V : Type) where
  | simple (ty : Ty) (v : Option (Val V))
  | complex (fs : List (Str × Data V))

mutual
/-- A property (core:2294-2295, 2253-2264). -/
def writeData {V : Type} (L : Lib V) : Data V → Except Err Js
  | .simple ty v => writeValue L ty v
  | .complex fs => (writeFields L fs).map .obj

/-- `EntityCTValueToJSON` (core:2256-2264). -/
def writeFields {V : Type} (L : Lib V) : List (Str × Data V) → Except Err (List (Str × Js))
  | [] => .ok []
  | (k, d) :: fs => do
    let j ← writeData L d
    let r ← writeFields L fs
    .ok ((k, j) :: r)
end

/-- The value of a key. -/
def lookup (k : Str) : List (Str × Js) → Option Js
  | [] => none
  | (x, j) :: l => if x = k then some j else lookup k l

/-- Whether `k` is part of `s`. -/
def within (k : Str) : Str → Bool
  | [] => k.isEmpty
  | c :: s => k.isPrefixOf (c :: s) || within k s

/-- Whether a value is this string. -/
def Js.isStr (k : Str) : Js → Bool
  | .str s => s = k
  | _ => false

/-- `k in obj` and `obj[k]` of Python (core:2042-2046, 2267-2271): lists and strings contain strings, but have no values for them. -/
def find (k : Str) : Js → Except Err (Option Js)
  | .obj l => .ok (lookup k l)
  | .arr l => if l.any (·.isStr k) then .error .typeError else .ok none
  | .str s => if within k s then .error .typeError else .ok none
  | _ => .error .typeError

/-- `SetFromValue(None)` (core:2049, 2274): complex values do not have it. -/
def clear {V : Type} : Data V → Except Err (Data V)
  | .simple ty _ => .ok (.simple ty none)
  | .complex _ => .error .attributeError

mutual
/-- A property of an object (core:2043-2046, 2268-2271). -/
def readData {V : Type} (L : Lib V) : Data V → Js → Except Err (Data V)
  | .simple ty _, j => (readValue L ty j).map (.simple ty)
  | .complex fs, j => (readFields L fs j).map .complex

/-- `ReadEntityCTValue` (core:2266-2274), also the properties in `SetFromJSONObject` (core:2041-2049). -/
def readFields {V : Type} (L : Lib V) : List (Str × Data V) → Js → Except Err (List (Str × Data V))
  | [], _ => .ok []
  | (k, d) :: fs, j => do
    let x ← find k j
    let d' ← match x with
      | some x => readData L d x
      | none => clear d
    let r ← readFields L fs j
    .ok ((k, d') :: r)
end

/-- `GenerateEntityTypeInJSON` (core:2110-2135): what is known of the entity, the selected properties, and what follows on its links. -/
def writeEntity {V : Type} (L : Lib V) (meta_ : Js) (selected : Str → Bool) (links : List (Str × Js)) (fs : List (Str × Data V)) :
    Except Err Js := do
  let r ← writeFields L (fs.filter fun f => selected f.1)
  .ok (.obj (("__metadata".toList, meta_) :: (r ++ links)))

/-- The properties in `SetFromJSONObject` (core:2041-2049). -/
def readEntity {V : Type} (L : Lib V) (fs : List (Str × Data V)) (j : Js) : Except Err (List (Str × Data V)) := readFields L fs j

/-! ## Links -/

/-- What is bound to a navigation property: an existing entity with this location, or a new one. -/
inductive Bound (V : Type) where
  | existing (href : Str)
  | new (fs : List (Str × Data V))

/-- A link to an existing entity (core:2173, 2213). -/
def linkJs (href : Str) : Js := .obj [("__metadata".toList, .obj [("uri".toList, .str href)])]

/-- The bindings of a new entity, all to existing ones (core:2190-2214). -/
def writeLinks (hrefs : List Str) : Js := .arr (hrefs.map linkJs)

/-- `link['__metadata']['uri']` (core:2066). -/
def href (j : Js) : Except Err Str :=
  match j with
  | .obj l =>
    match lookup "uri".toList l with
    | some (.str s) => .ok s
    | some _ => .error .typeError
    | none => .error .keyError
  | _ => .error .typeError

/-- One link of a new entity (core:2063-2084); `fresh` is a new entity of the target set.  Its own links are not modelled. -/
def readLink {V : Type} (L : Lib V) (fresh : List (Str × Data V)) (link : Js) : Except Err (Bound V) :=
  match link with
  | .obj [(k, m)] => if k = "__metadata".toList then (href m).map .existing else (readFields L fresh link).map .new
  | .obj _ => (readFields L fresh link).map .new
  | .arr [x] => if x.isStr "__metadata".toList then .error .typeError else (readFields L fresh link).map .new
  | .arr _ => (readFields L fresh link).map .new
  | .str _ => (readFields L fresh link).map .new
  | _ => .error .typeError

/-- All links of a list. -/
def readAll {V : Type} (L : Lib V) (fresh : List (Str × Data V)) : List Js → Except Err (List (Bound V))
  | [] => .ok []
  | j :: js => do
    let b ← readLink L fresh j
    let r ← readAll L fresh js
    .ok (b :: r)

/-- The links of a navigation property of a new entity (core:2053-2062): the value of a property with one target is put in a list.
Objects and strings are collections of their keys and characters. -/
def readLinks {V : Type} (L : Lib V) (fresh : List (Str × Data V)) (isCollection : Bool) (j : Js) : Except Err (List (Bound V)) :=
  if isCollection then
    match j with
    | .arr l => readAll L fresh l
    | .obj l => readAll L fresh (l.map fun f => .str f.1)
    | .str s => readAll L fresh (s.map fun c => .str [c])
    | _ => .error .typeError
  else readAll L fresh [j]

/-! ## Single properties -/

/-- The body of an answer with a property (core:2236-2254, 2280-2295; server:808-819). -/
def writeProperty {V : Type} (L : Lib V) (version : Nat) (name : Str) (d : Data V) : Except Err Js := do
  let j ← writeData L d
  let p := Js.obj [(name, j)]
  .ok (.obj [("d".toList, if version = 2 then .obj [("results".toList, p)] else p)])

/-- The body of a request with a property (core:2249-2251, 2290-2292; server:797-801). -/
def readProperty {V : Type} (L : Lib V) (name : Str) (d : Data V) (j : Js) : Except Err (Data V) := do
  let x ← find name j
  match x with
  | some x => readData L d x
  | none => .ok d

end Verif.OData.Json
