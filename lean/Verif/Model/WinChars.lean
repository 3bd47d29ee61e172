import Verif.Model.Py

/-!
# Windows character repair (/repo/QTIMigration/fixwinchars.py)

A file is a list of byte values.
-/

namespace Verif.Win

open Verif

/-- The bytes of an ASCII literal. -/
def bytes (s : String) : List Nat := s.toList.map Char.toNat

/-- `CharFixMap` (fixwinchars.py:34-62). -/
def charFixMap : List (Nat × String) := [
  (0x80, "&#x20AC;"), (0x82, "&#x201A;"), (0x83, "&#x192;"), (0x84, "&#x201E;"), (0x85, "&#x2026;"), (0x86, "&#x2020;"),
  (0x87, "&#x2021;"), (0x88, "&#x2C6;"), (0x89, "&#x2030;"), (0x8A, "&#x160;"), (0x8B, "&#x2039;"), (0x8C, "&#x152;"),
  (0x8E, "&#x17D;"), (0x91, "&#x2018;"), (0x92, "&#x2019;"), (0x93, "&#x201C;"), (0x94, "&#x201D;"), (0x95, "&#x2022;"),
  (0x96, "&#x2013;"), (0x97, "&#x2014;"), (0x98, "&#x2DC;"), (0x99, "&#x2122;"), (0x9A, "&#x161;"), (0x9B, "&#x203A;"),
  (0x9C, "&#x153;"), (0x9E, "&#x17E;"), (0x9F, "&#x178;")]

/-- An upper-case hexadecimal digit, as written by `%X`. -/
def hexUpper (n : Nat) : Nat := if n < 10 then 48 + n else 55 + n

/-- Body of the output loop (fixwinchars.py:87-90).  `"%2X"` pads with a blank below 16, which does not occur: it is
only used from 0x80 on. -/
def fixByte (asciiMode : Bool) (c : Nat) : List Nat :=
  match charFixMap.find? (fun p => p.1 = c) with
  | some p => bytes p.2
  | none =>
    if asciiMode ∧ c ≥ 0x80 then bytes "&#x" ++ [hexUpper (c / 16), hexUpper (c % 16)] ++ bytes ";"
    else [c]

/-- The whole output loop (fixwinchars.py:86-94). -/
def fixBytes (asciiMode : Bool) (data : List Nat) : List Nat := data.flatMap (fixByte asciiMode)

/-- Whether the file is looked at (fixwinchars.py:65-75). -/
def eligible (forceMode : Bool) (data : List Nat) : Bool :=
  match data with
  | b0 :: b1 :: _ :: _ :: _ => !(b0 ∈ [0x00, 0xFE, 0xFF, 0xEF]) && b1 ≠ 0 && (b0 = 0x3C || forceMode)
  | _ => false

/-- The count of characters to fix is not zero (fixwinchars.py:78-84). -/
def needsFix (asciiMode : Bool) (data : List Nat) : Bool :=
  data.any (fun c => (c ≥ 0x80 && c ≤ 0x9F) || (asciiMode && c ≥ 0xA0))

/-- `FixFile` (fixwinchars.py:64-97): the contents of the file afterwards. -/
def fixFile (asciiMode forceMode : Bool) (data : List Nat) : List Nat :=
  if eligible forceMode data then
    if needsFix asciiMode data then fixBytes asciiMode data else data
  else data

end Verif.Win
