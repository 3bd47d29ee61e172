import Verif.Model.Py

/-!
# Lexical forms of XML schema data types

`DecodeBoolean`, `DecodeDecimal`, `DecodeDouble`, `DecodeInteger` and their encoders
(/repo/pyslet/pyslet/xsdatatypes20041028.py:16-76, 249-267, 419-442).  Floating point numbers are exact
rationals: rounding to binary floating point, overflow and the special values are not modelled.
-/

namespace Verif.Xsd

open Verif

/-- `DecodeBoolean` (xsdatatypes20041028.py:16-32) of a string. -/
def decodeBoolean (src : Str) : Except Err Bool :=
  if src = ['t', 'r', 'u', 'e'] then .ok true
  else if src = ['f', 'a', 'l', 's', 'e'] then .ok false
  else if src = ['1'] then .ok true
  else if src = ['0'] then .ok false
  else .error .valueError

/-- `EncodeBoolean` (xsdatatypes20041028.py:34-44) of a truth value. -/
def encodeBoolean (b : Bool) : Str := if b then ['t', 'r', 'u', 'e'] else ['f', 'a', 'l', 's', 'e']

/-- The check loop of `DecodeInteger` (xsdatatypes20041028.py:425-437): `sign` tells whether a sign is no
longer allowed. -/
def scanInteger (sign : Bool) : Str → Except Err Unit
  | [] => .ok ()
  | c :: cs =>
    if c.toNat = 0x2B ∨ c.toNat = 0x2D then
      if sign then .error .valueError else scanInteger true cs
    else if c.toNat < 0x30 ∨ c.toNat > 0x39 then .error .valueError
    else scanInteger true cs

/-- Python `int(s)` on a string made of signs and ASCII digits (the only ones that get there). -/
def pyInt (s : Str) : Except Err Int :=
  match s with
  | '-' :: t => if t ≠ [] ∧ t.all Py.isDigit then .ok (-(Py.digitsVal 10 t)) else .error .valueError
  | '+' :: t => if t ≠ [] ∧ t.all Py.isDigit then .ok (Py.digitsVal 10 t) else .error .valueError
  | t => if t ≠ [] ∧ t.all Py.isDigit then .ok (Py.digitsVal 10 t) else .error .valueError

/-- `DecodeInteger` (xsdatatypes20041028.py:419-438). -/
def decodeInteger (src : Str) : Except Err Int := scanInteger false src >>= fun _ => pyInt src

/-- `EncodeInteger` (xsdatatypes20041028.py:440-442), also Python's `str(i)`. -/
def encodeInteger (i : Int) : Str :=
  if i < 0 then '-' :: Py.strNat i.natAbs else Py.strNat i.natAbs

/-- The check loop of `DecodeDecimal` (xsdatatypes20041028.py:52-75). -/
def scanDecimal (sign point digit : Bool) : Str → Except Err Unit
  | [] => if digit then .ok () else .error .valueError
  | c :: cs =>
    if c.toNat = 0x2B ∨ c.toNat = 0x2D then
      if sign then .error .valueError else scanDecimal true point digit cs
    else if c.toNat = 0x2E then
      if point then .error .valueError else scanDecimal sign true digit cs
    else if c.toNat < 0x30 ∨ c.toNat > 0x39 then .error .valueError
    else scanDecimal true point true cs

/-- The value of digits with at most one decimal point among them. -/
def pyUnsigned (s : Str) : Except Err Rat :=
  match Py.split '.' s with
  | [a] => if a ≠ [] ∧ a.all Py.isDigit then .ok (Py.digitsVal 10 a : Nat) else .error .valueError
  | [a, b] =>
    if a ++ b ≠ [] ∧ (a ++ b).all Py.isDigit then
      .ok ((Py.digitsVal 10 (a ++ b) : Nat) / ((10 ^ b.length : Nat) : Rat))
    else .error .valueError
  | _ => .error .valueError

/-- Python `float(s)` on a string made of signs, points and ASCII digits (the only ones that get
there). -/
def pyFloat (s : Str) : Except Err Rat :=
  match s with
  | '-' :: t => pyUnsigned t >>= fun q => .ok (-q)
  | '+' :: t => pyUnsigned t
  | t => pyUnsigned t

/-- `DecodeDecimal` (xsdatatypes20041028.py:47-76). -/
def decodeDecimal (src : Str) : Except Err Rat := scanDecimal false false false src >>= fun _ => pyFloat src

/-- `math.pow(10,e)`. -/
def pow10 (e : Int) : Rat :=
  if 0 ≤ e then ((10 ^ e.toNat : Nat) : Rat) else 1 / ((10 ^ (-e).toNat : Nat) : Rat)

/-- `DecodeDouble` (xsdatatypes20041028.py:249-267).  The special values are reported as `unmodelled`. -/
def decodeDouble (src : Str) : Except Err Rat :=
  let s := Py.lower src
  if 'e' ∈ s then
    match Py.split 'e' s with
    | [m, e] => do
      let m ← decodeDecimal m
      let e ← decodeInteger e
      return m * pow10 e
    | _ => .error .valueError
  else if s = ['i', 'n', 'f'] ∨ s = ['-', 'i', 'n', 'f'] ∨ s = ['n', 'a', 'n'] then .error .unmodelled
  else decodeDecimal s

end Verif.Xsd
