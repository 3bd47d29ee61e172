import Verif.Model.InputWrapper

/-!
# What the body of a request is

Models `DetectEncoding` of `pyslet/pyslet/unicode5.py:20-58` and the part of
`Server.ReadXMLOrJSON`, `pyslet/pyslet/odata2/server.py:689-731`, that looks into the body of a request
without a content type, in UTF-8.  Characters stand for bytes.  Decoders of other encodings and the
parsers that read the body afterwards are not modelled.
-/

namespace Verif.Sniff

open Verif Verif.InputWrapper

/-- The encodings of `MagicTable` (unicode5.py:20-34) and `utf_8_sig`. -/
inductive Encoding
  | utf32be | utf32le | utf32 | utf16be | utf16le | utf8 | utf8sig
deriving DecidableEq, Repr

/-- A byte. -/
def byte (n : Nat) : Char := Char.ofNat n

/-- One of `keepers`, or a star (unicode5.py:44-53). -/
inductive Key
  | zero | fe | ff | star
deriving DecidableEq, Repr

/-- The key of a byte that is there, unicode5.py:50-53. -/
def keyOf (c : Char) : Key :=
  if c = byte 0 then .zero else if c = byte 254 then .fe else if c = byte 255 then .ff else .star

/-- The key of byte `i`, unicode5.py:46-53. -/
def keyAt (magic : Str) (i : Nat) : Key :=
  match magic[i]? with
  | none => .star
  | some c => keyOf c

/-- `MagicTable`, unicode5.py:20-34. -/
def magicTable : Key → Key → Key → Key → Option Encoding
  | .zero, .zero, .fe, .ff => some .utf32be
  | .ff, .fe, .zero, .zero => some .utf32le
  | .zero, .zero, .ff, .fe => some .utf32
  | .fe, .ff, .zero, .zero => some .utf32
  | .fe, .ff, .star, .star => some .utf16be
  | .ff, .fe, .star, .star => some .utf16le
  | .zero, .zero, .zero, .star => some .utf32be
  | .star, .zero, .zero, .zero => some .utf32le
  | .zero, .zero, .star, .zero => some .utf32le
  | .zero, .star, .zero, .zero => some .utf32le
  | .zero, .star, .zero, .star => some .utf16be
  | .star, .zero, .star, .zero => some .utf16le
  | .star, .star, .star, .star => some .utf8
  | _, _, _, _ => none

/-- `DetectEncoding`, unicode5.py:36-58. -/
def detectEncoding (magic : Str) : Option Encoding :=
  if magic.take 3 = [byte 239, byte 187, byte 191] then some .utf8sig
  else magicTable (keyAt magic 0) (keyAt magic 1) (keyAt magic 2) (keyAt magic 3)

/-- The loop that skips bytes below 0x20, server.py:719-724; every turn takes a byte. -/
def skipControls : Nat → Wrapper → Option Char × Wrapper
  | 0, w => (none, w)
  | f + 1, w =>
    match read w 1 with
    | ([], w') => (none, w')
    | (c :: _, w') => if c.toNat < 0x20 then skipControls f w' else (some c, w')

/-- What the body is taken for: XML, JSON, an `InvalidData` exception, a `UnicodeDecodeError` (of
the comparison of a byte with a unicode string), or an `IOError`. -/
inductive Kind
  | xml | json | invalid | undecodable | ioError
deriving DecidableEq, Repr

/-- The decision, server.py:725-730: the empty string is in every string. -/
def kindOf : Option Char → Kind
  | none => .json
  | some c => if c = '<' then .xml
    else if 128 ≤ c.toNat then .undecodable
    else if c = '{' ∨ c = '[' then .json
    else .invalid

/-- server.py:713-731 for UTF-8: what the body is, and the wrapper that it is then read from. -/
def sniff (size : Nat) (w : Wrapper) : Kind × Wrapper :=
  let r := skipControls (w.buffer.length + w.input.data.length + 1) w
  match kindOf r.1 with
  | .xml => match seek size r.2 0 .set with
    | some w' => (.xml, w')
    | none => (.ioError, r.2)
  | .json => match seek size r.2 0 .set with
    | some w' => (.json, w')
    | none => (.ioError, r.2)
  | k => (k, r.2)

end Verif.Sniff
