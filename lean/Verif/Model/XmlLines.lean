import Verif.Model.Py

/-!
# Characters, lines and positions of XML entities

Models `XMLEntity.Reset`, `NextChar` and `NextLine`,
`pyslet/pyslet/xml20081126/structures.py:2771-2828` and `2916-2924`, over a source that gives
its characters in pieces of any size.  Decoders are not modelled: the source gives characters.
-/

namespace Verif.XmlLines

open Verif

/-- `charSource`: the characters to come, and for each read how many beyond the first it gives (reads
after the plan give one character). -/
structure Source where
  data : Str
  plan : List Nat

/-- `charSource.read(chunk)`, structures.py:2809: at least one character if there is one. -/
def Source.read (s : Source) : Str × Source :=
  match s.plan with
  | [] => (s.data.take 1, ⟨s.data.drop 1, []⟩)
  | p :: ps => (s.data.take (p + 1), ⟨s.data.drop (p + 1), ps⟩)

/-- The attributes of `XMLEntity` that `NextChar` uses.  `cur` is `theChar` (none before the first
call and at the end), `ended` says that it is `None`, `next` is `charPos+1`. -/
structure Entity where
  source : Source
  chars : Str
  next : Nat
  cur : Option Char
  ended : Bool
  ignoreLF : Bool
  line : Nat
  col : Nat

/-- The first half of `NextChar`, structures.py:2805-2814: to the next character, reading a piece if
there is none left. -/
def fetch (e : Entity) : Option Char × Entity :=
  let e := { e with col := e.col + 1 }
  match e.chars[e.next]? with
  | some c => (some c, { e with next := e.next + 1 })
  | none =>
    match e.source.read with
    | (cs, s) =>
      match cs[0]? with
      | some c => (some c, { e with source := s, chars := cs, next := 1 })
      | none => (none, { e with source := s, chars := cs, next := 0 })

/-- `NextLine`, structures.py:2916-2924. -/
def nextLine (e : Entity) : Entity := { e with line := e.line + 1, col := 0 }

/-- `NextChar`, structures.py:2797-2828.  It calls itself after a line feed that it ignores, which is
once, so that the number of calls may be two. -/
def nextChar : Nat → Entity → Entity
  | 0, e => e
  | f + 1, e =>
    if e.ended = true then e
    else
      match fetch e with
      | (none, e) => { e with cur := none, ended := true }
      | (some c, e) =>
        if c = '\r' then nextLine { e with cur := some '\n', ignoreLF := true }
        else if c = '\n' then
          if e.ignoreLF = true then nextChar f { e with cur := some '\n', ignoreLF := false }
          else nextLine { e with cur := some '\n' }
        else { e with cur := some c, ignoreLF := false }

/-- `Reset`, structures.py:2771-2789, of an entity that is not in UTF-8. -/
def start (data : Str) (plan : List Nat) : Entity :=
  nextChar 2 ⟨⟨data, plan⟩, [], 0, none, false, false, 1, 0⟩

/-- `Reset`, structures.py:2771-2789, of an entity in UTF-8: a mark at the start is passed. -/
def startUtf8 (data : Str) (plan : List Nat) : Entity :=
  let e := start data plan
  if e.cur = some '\ufeff' then nextChar 2 e else e

/-- The characters that a parser sees, with their lines and positions (`GetPositionStr`,
structures.py:2790-2795), by calling `NextChar` until `theChar` is `None`. -/
def seen : Nat → Entity → List (Char × Nat × Nat)
  | 0, _ => []
  | f + 1, e =>
    match e.cur with
    | none => []
    | some c => (c, e.line, e.col) :: seen f (nextChar 2 e)

/-- All of an entity. -/
def readAll (data : Str) (plan : List Nat) : List (Char × Nat × Nat) :=
  seen (data.length + 1) (start data plan)

/-- All of an entity in UTF-8. -/
def readAllUtf8 (data : Str) (plan : List Nat) : List (Char × Nat × Nat) :=
  seen (data.length + 1) (startUtf8 data plan)

end Verif.XmlLines
