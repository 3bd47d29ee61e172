/-!
# Python primitives used by the model

A Python 2 `str`/`unicode` value is a `List Char`; `ord` is `Char.toNat`.  Byte strings are strings
whose characters all have codes below 256.  Lone surrogates are not representable as `Char`; a wide
(UCS-4) build is assumed.
-/

namespace Verif

/-- A Python string. -/
abbrev Str := List Char

/-- The Python exceptions that the modelled code can raise. -/
inductive Err where
  /-- `XMLException` (QTIMigration/lib/xmlutils.py:38) -/
  | xmlException
  /-- built-in `ValueError` -/
  | valueError
  /-- built-in `TypeError` -/
  | typeError
  /-- built-in `IndexError` -/
  | indexError
  /-- built-in `KeyError` -/
  | keyError
  /-- built-in `AttributeError` -/
  | attributeError
  /-- `QTIException` (QTIMigration/lib/imsqtiv1.py:81) -/
  | qtiException
  /-- `RTFException` (QTIMigration/lib/rtfutils.py) -/
  | rtfException
  /-- a failed `assert` -/
  | assertionError
  /-- `core.ProcessingError` (pyslet/pyslet/qtiv2/core.py) -/
  | processingError
  /-- built-in `NotImplementedError` -/
  | notImplemented
  /-- `OSError` or `IOError` from the file system -/
  | osError
  /-- `UnicodeDecodeError` -/
  | unicodeError
  /-- `CPFilePathError` and the `CPZIP...Error` exceptions (pyslet/pyslet/imscpv1p2.py:26-35) -/
  | packageError
  /-- built-in `NameError` -/
  | nameError
  /-- a value (lone surrogate) outside the modelled character set -/
  | unmodelled
deriving DecidableEq, Repr

instance instDecidableEqExcept {ε α} [DecidableEq ε] [DecidableEq α] : DecidableEq (Except ε α)
  | .ok a, .ok b => if h : a = b then isTrue (by rw [h]) else isFalse (fun e => h (by injection e))
  | .error a, .error b => if h : a = b then isTrue (by rw [h]) else isFalse (fun e => h (by injection e))
  | .ok _, .error _ => isFalse (fun e => by injection e)
  | .error _, .ok _ => isFalse (fun e => by injection e)

namespace Py

/-- Decimal digit character of `n % 10`. -/
def digitChar (n : Nat) : Char := Char.ofNat (48 + n % 10)

/-- `str(n)` for a non-negative integer. -/
def strNat (n : Nat) : Str :=
  if n < 10 then [digitChar n] else strNat (n / 10) ++ [digitChar (n % 10)]
termination_by n

/-- Lower-case hexadecimal digit character of `n % 16`. -/
def hexDigitChar (n : Nat) : Char :=
  if n % 16 < 10 then Char.ofNat (48 + n % 16) else Char.ofNat (87 + n % 16)

/-- Membership in the literal `"0123456789ABCDEFabcdef"`. -/
def isHex (c : Char) : Bool :=
  (48 ≤ c.toNat && c.toNat ≤ 57) || (65 ≤ c.toNat && c.toNat ≤ 70) || (97 ≤ c.toNat && c.toNat ≤ 102)

/-- Membership in `string.digits`. -/
def isDigit (c : Char) : Bool := 48 ≤ c.toNat && c.toNat ≤ 57

/-- Membership in `string.ascii_letters`. -/
def isLetter (c : Char) : Bool :=
  (65 ≤ c.toNat && c.toNat ≤ 90) || (97 ≤ c.toNat && c.toNat ≤ 122)

/-- Value of a hexadecimal digit. -/
def hexVal (c : Char) : Nat :=
  if c.toNat ≤ 57 then c.toNat - 48 else if c.toNat ≤ 70 then c.toNat - 55 else c.toNat - 87

/-- Value of a digit string in the given base, most significant digit first. -/
def digitsVal (base : Nat) (s : Str) : Nat := s.foldl (fun acc c => acc * base + hexVal c) 0

/-- `int(s)` restricted to ASCII digits with an optional minus sign.  Surrounding white space,
explicit plus signs and non-ASCII digits do not occur in the modelled callers (names contain no
white space or `+`; non-ASCII digits are a simplification: reported as `valueError`). -/
def intOfStr (s : Str) : Except Err Int :=
  match s with
  | '-' :: t => if t ≠ [] ∧ t.all isDigit then .ok (-(digitsVal 10 t)) else .error .valueError
  | t => if t ≠ [] ∧ t.all isDigit then .ok (digitsVal 10 t) else .error .valueError

/-- `int(s,16)`: as `intOfStr`, with the optional `0x`/`0X` prefix Python accepts for base 16. -/
def intOfHexStr (s : Str) : Except Err Int :=
  let strip0x : Str → Str := fun t =>
    match t with
    | '0' :: 'x' :: u => u
    | '0' :: 'X' :: u => u
    | u => u
  match s with
  | '-' :: t =>
    let u := strip0x t
    if u ≠ [] ∧ u.all isHex then .ok (-(digitsVal 16 u)) else .error .valueError
  | t =>
    let u := strip0x t
    if u ≠ [] ∧ u.all isHex then .ok (digitsVal 16 u) else .error .valueError

/-- `unichr(i)` on a wide build: `ValueError` outside 0..0x10FFFF.  Surrogates, which Python accepts,
are reported as `unmodelled`. -/
def unichr (i : Int) : Except Err Char :=
  if i < 0 ∨ i > 0x10FFFF then .error .valueError
  else if 0xD800 ≤ i ∧ i ≤ 0xDFFF then .error .unmodelled
  else .ok (Char.ofNat i.toNat)

/-- `s.split(sep)` for a one-character separator: never empty. -/
def split (sep : Char) : Str → List Str
  | [] => [[]]
  | c :: t =>
    if c = sep then [] :: split sep t
    else match split sep t with
      | [] => [[c]]
      | p :: ps => (c :: p) :: ps

/-- `string.join(parts, sep)` for a one-character separator. -/
def join (sep : Char) : List Str → Str
  | [] => []
  | [p] => p
  | p :: q :: ps => p ++ sep :: join sep (q :: ps)

/-- ASCII part of `str.lower()`; characters above 127 are left alone (simplification for
`unicode.lower()`). -/
def lowerChar (c : Char) : Char :=
  if 65 ≤ c.toNat ∧ c.toNat ≤ 90 then Char.ofNat (c.toNat + 32) else c

/-- `s.lower()` (ASCII). -/
def lower (s : Str) : Str := s.map lowerChar

end Py
end Verif
