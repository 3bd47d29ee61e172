import Verif.Model.CharClass
import Verif.Model.Dict

/-!
# Names, identifiers, views and warnings

* name tests: /repo/pyslet/pyslet/xml20081126/structures.py:678-724, /repo/pyslet/pyslet/xmlnames20091208.py:17-26;
* `ValidateIdentifier`: /repo/pyslet/pyslet/qtiv2/core.py:40-71;
* `ReadIdentifier`, `ReadView`, `PrintWarning` of the migration tool: /repo/QTIMigration/lib/imsqtiv1.py.
-/

namespace Verif.Names

open Verif

/-- An argument of the `CharClass` constructor. -/
inductive Arg where
  /-- a string: each of its characters -/
  | chars (cs : List Nat)
  /-- a pair: a range -/
  | range (a z : Nat)
  /-- another class -/
  | cls (rs : List CC.Rg)

/-- Loop body of `CharClass.__init__` (unicode5.py:118-127).  Range identities play no role here: fresh tags are
all 0. -/
def addArg (rs : List CC.Rg) : Arg → List CC.Rg
  | .chars cs => cs.foldl (CC.addChar 0) rs
  | .range a z => CC.addRange 0 rs a z
  | .cls o => CC.addClass 0 rs o

/-- `CharClass.__init__` (unicode5.py:115-127). -/
def mkClass (args : List Arg) : List CC.Rg := args.foldl addArg []

/-- `NameStartCharClass` (structures.py:678-682). -/
def nameStartCharClass : List CC.Rg := mkClass [.chars [0x3a], .range 0x41 0x5a, .chars [0x5f], .range 0x61 0x7a,
  .range 0xc0 0xd6, .range 0xd8 0xf6, .range 0xf8 0x2ff, .range 0x370 0x37d, .range 0x37f 0x1fff,
  .range 0x200c 0x200d, .range 0x2070 0x218f, .range 0x2c00 0x2fef, .range 0x3001 0xd7ff, .range 0xf900 0xfdcf,
  .range 0xfdf0 0xfffd]

/-- `NameCharClass` (structures.py:699-700). -/
def nameCharClass : List CC.Rg := mkClass [.cls nameStartCharClass, .chars [0x2d], .chars [0x2e], .range 0x30 0x39,
  .chars [0xb7], .range 0x300 0x36f, .range 0x203f 0x2040]

/-- `IsNameStartChar` (structures.py:684-697). -/
def isNameStartChar (ch : Char) : Bool :=
  let c := ch.toNat
  if c ≤ 0x7a then
    if c ≥ 0x61 then true
    else if c ≤ 0x5a then
      if c ≥ 0x41 then true else c == 0x3a
    else c == 0x5f
  else CC.test nameStartCharClass c

/-- `IsNameChar` (structures.py:702-724). -/
def isNameChar (ch : Char) : Bool :=
  let c := ch.toNat
  if c ≤ 0x7a then
    if c ≥ 0x61 then true
    else if c ≤ 0x5a then
      if c ≥ 0x41 then true
      else if c ≤ 0x39 then
        if c ≥ 0x30 then true else c == 0x2d || c == 0x2e
      else c == 0x3a
    else c == 0x5f
  else CC.test nameCharClass c

/-- `IsValidName` (structures.py:726-736). -/
def isValidName : Str → Bool
  | [] => false
  | c :: t => isNameStartChar c && t.all isNameChar

/-- `IsValidNCName` (xmlnames20091208.py:17-26). -/
def isValidNCName : Str → Bool
  | [] => false
  | c :: t => (isNameStartChar c && c != ':') && t.all (fun d => isNameChar d && d != ':')

/-- The character replacement of `ValidateIdentifier` (core.py:62-68). -/
def fixNameChar (c : Char) : Char := if c = ':' then '-' else if isNameChar c then c else '_'

/-- `ValidateIdentifier(value,prefix)` (core.py:40-71). -/
def validateIdentifier (prefix_ : Str) : Str → Str
  | [] => prefix_
  | c :: t => (if !isNameStartChar c || c == ':' then prefix_ else []) ++ (c :: t).map fixNameChar

/-- `unicode.isspace` (Python 2): what `unicode.strip()` removes. -/
def isSpace (ch : Char) : Bool :=
  let c := ch.toNat
  (9 ≤ c && c ≤ 13) || (28 ≤ c && c ≤ 32) || c == 0x85 || c == 0xa0 || c == 0x1680 || c == 0x180e ||
  (0x2000 ≤ c && c ≤ 0x200a) || c == 0x2028 || c == 0x2029 || c == 0x202f || c == 0x205f || c == 0x3000

/-- `value.strip()`. -/
def strip (s : Str) : Str := ((s.dropWhile isSpace).reverse.dropWhile isSpace).reverse

/-- `ReadIdentifier` (imsqtiv1.py:151-158), returning the new identifier and the warning printed, if any.

`qti2.ValidateIdentifier` is taken to be `pyslet.qtiv2.core.ValidateIdentifier`, from which it was
evidently moved: at the pinned commit the module imported as `qti2` (pyslet.imsqtiv2p1) no longer exports that name
and the call raises `AttributeError`. -/
def readIdentifier (prefix_ value : Str) : Str × Option Str :=
  let v := strip value
  let n := (validateIdentifier prefix_ v).map (fun c => if c = '.' then '_' else c)
  (n, if n ≠ v then
    some ("Warning: replacing bad identifier \"".toList ++ v ++ "\" with \"".toList ++ n ++ "\"".toList) else none)

/-- `VIEWMAP` (imsqtiv1.py:102-106). -/
def viewMap : List (Str × Str) :=
  [("administrator".toList, "invigilator".toList), ("adminauthority".toList, "invigilator".toList),
   ("assessor".toList, "scorer".toList), ("author".toList, "author".toList),
   ("candidate".toList, "candidate".toList), ("invigilator".toList, "invigilator".toList),
   ("proctor".toList, "invigilator".toList), ("psychometrician".toList, "scorer".toList),
   ("tutor".toList, "tutor".toList), ("scorer".toList, "scorer".toList)]

/-- `ReadView` (imsqtiv1.py:160-170): the view returned (warnings omitted). -/
def readView (value : Str) : Str :=
  let view := Py.lower (strip value)
  if view ≠ "all".toList then
    match viewMap.find? (fun p => p.1 = view) with
    | some p => p.2
    | none => view
  else view

/-- The state of an item's warning log: `self.warnings` (as the list of its keys) and `self.msg`. -/
structure WarnLog where
  warnings : List Str := []
  msg : Str := []
  /-- what was passed on to the parent because of `force` -/
  forwarded : List Str := []

/-- `ItemV1.PrintWarning(warning,force)` (imsqtiv1.py:802-807). -/
def WarnLog.print (l : WarnLog) (w : Str × Bool) : WarnLog :=
  let l := if w.1 ∈ l.warnings then l
    else { l with msg := l.msg ++ w.1 ++ ['\n'], warnings := l.warnings ++ [w.1] }
  if w.2 then { l with forwarded := l.forwarded ++ [w.1] } else l

end Verif.Names
