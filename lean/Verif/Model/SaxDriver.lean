import Verif.Model.Py

/-!
# The SAX driver of the migration tool

`QTIParserV1.startElement`, `characters`, `endElement` (/repo/QTIMigration/lib/imsqtiv1.py:4165-4199) with the classes
`Unsupported` (253-263) and `Skipped` (269-277).

The hundred or so element classes are not modelled here: `Sem` stands for an arbitrary collection of them, acting
on an arbitrary world (everything the element objects can change, including the content package).
-/

namespace Verif.Sax

open Verif

/-- What the driver tests with `isinstance`. -/
inductive Kind where
  /-- `MatThing` or `RawMaterial` -/
  | mat
  /-- `Unsupported` -/
  | unsupported
  /-- `Skipped` -/
  | skipped
  /-- any other element class -/
  | other
deriving DecidableEq, Repr

/-- An element object: its kind and its identity in the world. -/
structure Obj where
  kind : Kind
  id : Nat
deriving DecidableEq, Repr

/-- The element classes other than `Unsupported` and `Skipped`, as an arbitrary semantics over a world `W`. -/
structure Sem (W Attrs : Type) where
  /-- `self.elements.has_key(name)` with a class different from `Unsupported` -/
  supported : Str → Bool
  /-- construct the object registered for `name`; the flag says whether it is a `MatThing` -/
  create : W → Str → Attrs → Option Obj → Except Err (W × Bool × Nat)
  /-- construct a `RawMaterial` -/
  createRaw : W → Str → Attrs → Option Obj → Except Err (W × Nat)
  /-- `cObject.AddData(ch)` -/
  addData : W → Obj → Str → Except Err W
  /-- `cObject.CloseObject()` -/
  close : W → Obj → Except Err W

/-- The driver's own attributes; `log` is what is printed by `Unsupported` objects. -/
structure State (W : Type) where
  world : W
  cObject : Option Obj := none
  objStack : List (Option Obj) := []
  skipMode : Nat := 0
  gotRoot : Bool := false
  log : List Str := []

/-- SAX events. -/
inductive Event (Attrs : Type) where
  | start (name : Str) (attrs : Attrs)
  | chars (s : Str)
  | stop (name : Str)

variable {W Attrs : Type}

/-- `isinstance(self.cObject,(MatThing,RawMaterial))`. -/
def isMat : Option Obj → Bool
  | some o => o.kind = .mat
  | none => false

/-- `Unsupported.__init__` prints unless its parent is `Unsupported` (imsqtiv1.py:256-259). -/
def unsupportedLog (parent : Option Obj) (name : Str) : List Str :=
  match parent with
  | some o => if o.kind = .unsupported then [] else [name]
  | none => [name]

/-- `startElement` (imsqtiv1.py:4165-4185).  The assertion at 4168 is an `AssertionError`, here `qtiException`. -/
def start (S : Sem W Attrs) (s : State W) (name : Str) (attrs : Attrs) : Except Err (State W) :=
  let parent := s.cObject
  if parent = none ∧ s.gotRoot = true then .error .qtiException
  else
    let s := { s with objStack := s.cObject :: s.objStack }
    if s.skipMode ≠ 0 then .ok { s with cObject := some ⟨.skipped, 0⟩ }
    else if isMat s.cObject then
      S.createRaw s.world name attrs parent >>= fun (w, i) => .ok { s with world := w, cObject := some ⟨.mat, i⟩ }
    else if S.supported name then
      S.create s.world name attrs parent >>= fun (w, m, i) =>
        .ok { s with world := w, cObject := some ⟨if m then .mat else .other, i⟩ }
    else .ok { s with cObject := some ⟨.unsupported, 0⟩, skipMode := s.objStack.length,
                      log := s.log ++ unsupportedLog parent name }

/-- `characters` (imsqtiv1.py:4187-4188); `Unsupported.AddData` and `Skipped.AddData` do nothing. -/
def characters (S : Sem W Attrs) (s : State W) (ch : Str) : Except Err (State W) :=
  match s.cObject with
  | none => .error .attributeError
  | some o =>
    if o.kind = .unsupported ∨ o.kind = .skipped then .ok s
    else S.addData s.world o ch >>= fun w => .ok { s with world := w }

/-- `endElement` (imsqtiv1.py:4190-4199); `CloseObject` of `Unsupported` and `Skipped` is the inherited one, which
does nothing (imsqtiv1.py:217-218). -/
def stop (S : Sem W Attrs) (s : State W) (_name : Str) : Except Err (State W) :=
  match s.objStack with
  | [] => .error .indexError
  | parent :: rest =>
    match s.cObject with
    | none => .error .attributeError
    | some o =>
      (if o.kind = .unsupported ∨ o.kind = .skipped then .ok s.world else S.close s.world o) >>= fun w =>
      let s := { s with world := w, objStack := rest }
      let s := if s.skipMode > s.objStack.length then { s with skipMode := 0 } else s
      match parent with
      | none => .ok { s with gotRoot := true }
      | some p => .ok { s with cObject := some p }

/-- One event. -/
def step (S : Sem W Attrs) (s : State W) : Event Attrs → Except Err (State W)
  | .start n a => start S s n a
  | .chars c => characters S s c
  | .stop n => stop S s n

/-- A sequence of events. -/
def run (S : Sem W Attrs) : List (Event Attrs) → State W → Except Err (State W)
  | [], s => .ok s
  | e :: es, s => step S s e >>= run S es

end Verif.Sax
