import Verif.Model.Py
import Verif.Model.Dict

/-!
# Encodings of XML files

Models `XMLEntity.AutoDetectEncoding` and its table,
`pyslet/pyslet/xml20081126/structures.py:2829-2861`.  Characters stand for bytes; the file is its
contents, and seeking gives the rest from that place.
-/

namespace Verif.AutoDetect

open Verif

/-- A byte. -/
def byte (n : Nat) : Char := Char.ofNat n

/-- What was found: the encoding, the place of the first character, and whether there was a mark. -/
structure Found where
  encoding : Str
  seekPos : Nat
  bom : Bool
deriving DecidableEq, Repr

/-- `MagicTable`, structures.py:2829-2845.  In the last two keys `\3` and `\4` are octal escapes, so
that they have five characters. -/
def magicTable : List (Str × Found) :=
  [ ([byte 0, byte 0, byte 254, byte 255], ⟨"utf_32_be".toList, 4, true⟩),
    ([byte 255, byte 254, byte 0, byte 0], ⟨"utf_32_le".toList, 4, true⟩),
    ([byte 0, byte 0, byte 255, byte 254], ⟨"utf_32".toList, 4, true⟩),
    ([byte 254, byte 255, byte 0, byte 0], ⟨"utf_32".toList, 4, true⟩),
    ([byte 254, byte 255], ⟨"utf_16_be".toList, 2, true⟩),
    ([byte 255, byte 254], ⟨"utf_16_le".toList, 2, true⟩),
    ([byte 239, byte 187, byte 191], ⟨"utf-8".toList, 3, true⟩),
    ([byte 0, byte 0, byte 0, '<'], ⟨"utf_32_be".toList, 0, false⟩),
    (['<', byte 0, byte 0, byte 0], ⟨"utf_32_le".toList, 0, false⟩),
    ([byte 0, byte 0, '<', byte 0], ⟨"utf_32_le".toList, 0, false⟩),
    ([byte 0, '<', byte 0, byte 0], ⟨"utf_32_le".toList, 0, false⟩),
    ([byte 0, '<', byte 0, '?'], ⟨"utf_16_be".toList, 0, false⟩),
    (['<', byte 0, '?', byte 0], ⟨"utf_16_le".toList, 0, false⟩),
    ([byte 3, 'c', byte 63, byte 120, byte 109], ⟨"utf_8".toList, 0, false⟩),
    ([byte 4, 'c', byte 111, byte 167, byte 148], ⟨"cp500".toList, 0, false⟩) ]

/-- The first four bytes, with `Q` for those that are missing, structures.py:2852-2854. -/
def padded (magic : Str) : Str := magic ++ List.replicate (4 - magic.length) 'Q'

/-- `self.MagicTable.get(magic,('utf-8',0,False))`, structures.py:2860. -/
def lookup (magic : Str) : Found :=
  match Dict.get magicTable magic with
  | some f => f
  | none => ⟨"utf-8".toList, 0, false⟩

/-- `AutoDetectEncoding`, structures.py:2847-2861: `none` is the `NameError` of `mage`. -/
def autoDetect (file : Str) : Option Found :=
  let magic := padded (file.take 4)
  if magic.take 2 = [byte 255, byte 254] ∨ magic.take 2 = [byte 254, byte 255] then
    if magic.drop 2 ≠ [byte 0, byte 0] then some (lookup (magic.take 2)) else some (lookup magic)
  else if magic.take 3 = [byte 239, byte 187, byte 191] then none
  else some (lookup magic)

end Verif.AutoDetect
