import Verif.Model.Dict
import Verif.Model.Blti

/-!
# Enumerations

Models `Enumeration` of `pyslet/pyslet/xsdatatypes20041028.py` (cited as *xsd*): the names of values in XML.

Dictionaries are lists; where the program goes through one, the order is that of the list.  `lower` and `upper` change only the
letters of ASCII.  Attributes that are set on the class for the names are not modelled.
-/

namespace Verif.Enumeration
open Verif

/-- Exceptions: `ValueError`, `IndexError`, `KeyError`, `UnboundLocalError`, `TypeError`. -/
inductive Fail
  | value | index | key | unbound | type
deriving DecidableEq, Repr

/-- The attributes of an enumeration (xsd:458, 594-597). -/
structure Enum where
  decode : List (Str × Nat)
  encode : List (Nat × Str)
  default : Option Nat
deriving DecidableEq, Repr

/-- `str.strip()`. -/
def strip (s : Str) : Str := ((s.dropWhile Blti.isSpace).reverse.dropWhile Blti.isSpace).reverse

/-- `str.upper()` of a character. -/
def upperChar (c : Char) : Char := if 97 ≤ c.toNat ∧ c.toNat ≤ 122 then Char.ofNat (c.toNat - 32) else c

/-- The entries of `encode` for those of `decode` (xsd:594): later ones replace earlier ones. -/
def reverseOf (decode : List (Str × Nat)) : List (Nat × Str) := decode.foldl (fun d p => Dict.set d p.2 p.1) []

/-- `MakeEnumeration` (xsd:584-597). -/
def make (decode : List (Str × Nat)) (defaultValue : Option Str) : Except Fail Enum :=
  match defaultValue with
  | none => .ok ⟨decode, reverseOf decode, none⟩
  | some [] => .ok ⟨decode, reverseOf decode, none⟩
  | some name => match Dict.get decode name with
    | some v => .ok ⟨decode, reverseOf decode, some v⟩
    | none => .error .key

/-- `MakeEnumerationAliases` (xsd:599-608). -/
def addAliases (e : Enum) : List (Str × Str) → Except Fail Enum
  | [] => .ok e
  | (a, key) :: as => match Dict.get e.decode key with
    | some v => addAliases { e with decode := Dict.set e.decode a v } as
    | none => .error .key

/-- The loop of `MakeLowerAliases` (xsd:618-623); the keys are listed before it starts, with their values, which it does not change. -/
def lowerLoop : List (Str × Nat) → List (Str × Nat) → List (Str × Nat)
  | [], d => d
  | (k, v) :: es, d => lowerLoop es (if Dict.has d (Py.lower k) then d else Dict.set d (Py.lower k) v)

/-- `MakeLowerAliases` (xsd:610-623). -/
def addLower (e : Enum) : Enum := { e with decode := lowerLoop e.decode e.decode }

/-- `cls.decode[src]` with `KeyError` as `ValueError`. -/
def find (e : Enum) (src : Str) : Except Fail Nat := match Dict.get e.decode src with
  | some v => .ok v
  | none => .error .value

/-- `DecodeValue` (xsd:461-469). -/
def decodeValue (e : Enum) (src : Str) : Except Fail Nat := find e (strip src)

/-- `DecodeLowerValue` (xsd:472-481). -/
def decodeLower (e : Enum) (src : Str) : Except Fail Nat := find e (Py.lower (strip src))

/-- `DecodeUpperValue` (xsd:484-493). -/
def decodeUpper (e : Enum) (src : Str) : Except Fail Nat := find e ((strip src).map upperChar)

/-- `DecodeTitleValue` (xsd:496-506): `src[0]` of an empty string is an `IndexError`. -/
def decodeTitle (e : Enum) (src : Str) : Except Fail Nat := match strip src with
  | [] => .error .index
  | c :: cs => find e (upperChar c :: Py.lower cs)

/-- `map` with a decoder, for strings. -/
def decodeAll (decoder : Str → Except Fail Nat) : List Str → Except Fail (List Nat)
  | [] => .ok []
  | s :: ss => match decoder s with
    | .error f => .error f
    | .ok v => match decodeAll decoder ss with
      | .error f => .error f
      | .ok vs => .ok (v :: vs)

/-- `DecodeValueList` (xsd:509-518). -/
def decodeValueList (decoder : Str → Except Fail Nat) (src : Str) : Except Fail (List Nat) := decodeAll decoder (Blti.fields [] src)

/-- The loop of `DecodeValueDict` (xsd:534-535): only `sv` and `s` are kept. -/
def lastDecoded (decoder : Str → Except Fail Nat) : Option (Nat × Str) → List Str → Except Fail (Option (Nat × Str))
  | last, [] => .ok last
  | _, s :: ss => match decoder s with
    | .error f => .error f
    | .ok v => lastDecoded decoder (some (v, s)) ss

/-- `DecodeValueDict` (xsd:521-538): the test `if not sv in result` comes after the loop. -/
def decodeValueDict (decoder : Str → Except Fail Nat) (src : Str) : Except Fail (List (Nat × Str)) :=
  match lastDecoded decoder none (Blti.fields [] src) with
  | .error f => .error f
  | .ok none => .error .unbound
  | .ok (some (v, s)) => .ok [(v, s)]

/-- `EncodeValue` (xsd:541-545); a value may be `None`. -/
def encodeValue (e : Enum) (value : Option Nat) : Option Str :=
  match value.bind (Dict.get e.encode) with
  | some s => some s
  | none => e.default.bind (Dict.get e.encode)

/-- `map(cls.EncodeValue,valueList)` and the error of `join` for `None`. -/
def encodeAll (e : Enum) : List Nat → Except Fail (List Str)
  | [] => .ok []
  | v :: vs => match encodeAll e vs with
    | .error f => .error f
    | .ok ss => match encodeValue e (some v) with
      | some s => .ok (s :: ss)
      | none => .error .type

/-- `EncodeValueList` (xsd:548-552). -/
def encodeValueList (e : Enum) (vs : List Nat) : Except Fail Str := match encodeAll e vs with
  | .error f => .error f
  | .ok ss => .ok (Py.join ' ' ss)

/-- A value is put before the first that is not less. -/
def insertValue (v : Nat) : List Nat → List Nat
  | [] => [v]
  | w :: ws => if v ≤ w then v :: w :: ws else w :: insertValue v ws

/-- `values.sort()`. -/
def sort : List Nat → List Nat
  | [] => []
  | v :: vs => insertValue v (sort vs)

/-- `EncodeValueDict` (xsd:555-580) with the keys of the dictionary in the order in which it gives them. -/
def encodeValueDict (e : Enum) (keys : List Nat) (sortKeys : Bool) : Except Fail Str :=
  encodeValueList e (if sortKeys then sort keys else keys)

end Verif.Enumeration
