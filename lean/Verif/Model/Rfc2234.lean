import Verif.Model.Py

/-!
# Parsers that can go back

Models the reading of characters by `RFC2234Parser` of `pyslet/pyslet/rfc2234.py` (cited as *abnf*), from strings and from files.

A file is the list of the strings that its `read` returns, none of them empty, and then empty strings.  The lists of errors and
parsers with a parent, which pass every call to it, are not modelled.
-/

namespace Verif.Rfc2234
open Verif

/-- What `PushParser` saves (abnf:192). -/
structure Saved where
  line : Nat
  base : Int
  pos : Nat
  ch : Option Char
deriving DecidableEq, Repr

/-- A parser (abnf:99-124): `source` is what a file still returns, and none for a string. -/
structure Parser where
  data : Str
  source : Option (List Str)
  line : Nat
  base : Int
  pos : Nat
  ch : Option Char
  stack : List Saved
deriving DecidableEq, Repr

/-- `ResetParser` with a string (abnf:99-124). -/
def ofString (s : Str) (line : Nat) (base : Int) : Parser := ⟨s, none, line, base, 0, s[0]?, []⟩

/-- `dataSource.read`: what is read, and what the file still returns. -/
def readChunk : List Str → Str × List Str
  | [] => ([], [])
  | c :: cs => (c, cs)

/-- `ResetParser` with a file (abnf:99-124). -/
def ofFile (chunks : List Str) (line : Nat) (base : Int) : Parser :=
  ⟨(readChunk chunks).1, some (readChunk chunks).2, line, base, 0, (readChunk chunks).1[0]?, []⟩

/-- `NextChar` (abnf:126-143). -/
def nextChar (p : Parser) : Parser :=
  match p.ch with
  | none => p
  | some _ =>
    match p.source with
    | none => { p with pos := p.pos + 1, ch := p.data[p.pos + 1]? }
    | some chunks =>
      if p.data.length ≤ p.pos + 1 then
        if p.stack ≠ [] then
          { p with data := p.data ++ (readChunk chunks).1, source := some (readChunk chunks).2, pos := p.pos + 1
                   ch := (p.data ++ (readChunk chunks).1)[p.pos + 1]? }
        else
          { p with data := (readChunk chunks).1, source := some (readChunk chunks).2, base := p.base - p.data.length, pos := 0
                   ch := (readChunk chunks).1[0]? }
      else { p with pos := p.pos + 1, ch := p.data[p.pos + 1]? }

/-- `NextLine` (abnf:145-150). -/
def nextLine (p : Parser) : Parser := { p with line := p.line + 1, base := p.pos }

/-- `PushParser` (abnf:188-192). -/
def push (p : Parser) : Parser := { p with stack := ⟨p.line, p.base, p.pos, p.ch⟩ :: p.stack }

/-- `PopParser` (abnf:194-203); nothing if the stack is empty, which is an `IndexError`. -/
def pop (p : Parser) (rewind : Bool) : Option Parser :=
  match p.stack with
  | [] => none
  | s :: st =>
    if rewind then some { p with line := s.line, base := s.base, pos := s.pos, ch := s.ch, stack := st }
    else some { p with stack := st }

/-- A call. -/
inductive Op
  | char | line | push
  | pop (rewind : Bool)
deriving DecidableEq, Repr

/-- A call of a method of the parser. -/
def step (p : Parser) : Op → Option Parser
  | .char => some (nextChar p)
  | .line => some (nextLine p)
  | .push => some (push p)
  | .pop r => pop p r

/-- Calls in turn. -/
def run : Parser → List Op → Option Parser
  | p, [] => some p
  | p, o :: os => match step p o with
    | none => none
    | some p' => run p' os

/-- What is seen of a parser: the current character, the line, and the position in it that is told in errors (abnf:168). -/
def seen (p : Parser) : Option Char × Nat × Int := (p.ch, p.line, p.pos - p.base)

end Verif.Rfc2234
