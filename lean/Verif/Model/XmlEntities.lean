/-!
# Entities of the XML library

Models how general entities are replaced while the text of a document is read: `XMLParser.NextChar`, `PushEntity` and
`ParseEntityRef` of `pyslet/pyslet/xml20081126/parser.py` (cited as *parser*), and `XMLDeclaredEntity.Open`, `XMLEntity.IsOpen` and
`Close` of `structures.py` (cited as *structures*).

The document is standalone: undeclared entities are errors.  Entities are internal, and contain characters and references, but no
markup; what they contain is what is left after their declaration was read (parser:636-667).  Character references and the five
predefined entities are characters (parser:2311-2330, 2376-2378).
-/

namespace Verif.PyXml.Ent

/-- Names of entities. -/
abbrev Name := Nat

/-- A character, or a reference to an entity. -/
inductive Tok where
  | chr (c : Char)
  | ref (n : Name)
deriving DecidableEq

/-- The declared entities (`dtd.GetEntity`, structures:814-819). -/
abbrev Decl := Name → Option (List Tok)

/-- What is being read: an entity, `none` for the document, and what is left of it. -/
structure Entry where
  name : Option Name
  rest : List Tok
deriving DecidableEq

/-- What `parser.entity` and `parser.entityStack` hold, the current entity first, and the entities that are open: those with a
`charSource` (structures:2640-2642).  The text that was read. -/
structure State where
  stack : List Entry
  opened : List Name
  out : List Char
deriving DecidableEq

/-- `Close` (structures:2926-2936). -/
def close (e : Entry) (o : List Name) : List Name :=
  match e.name with
  | none => o
  | some n => o.filter (· ≠ n)

/-- The end of `NextChar` (parser:148-151): entities that have been read to their end are closed, unless nothing waits for them. -/
def settle : List Entry → List Name → List Entry × List Name
  | e :: f :: es, o => if e.rest = [] then settle (f :: es) (close e o) else (e :: f :: es, o)
  | es, o => (es, o)

/-- How reading goes on or ends. -/
inductive Result where
  | more (s : State)
  | done (text : List Char)
  | recursion
  | undeclared
deriving DecidableEq

/-- One character of data (parser:784-794), or one reference (parser:2333-2406): the name and the semicolon are read before the
entity is looked up, and may have ended the entity they are in.  An entity without text is opened, but neither read nor closed
(parser:170-188). -/
def step (d : Decl) (s : State) : Result :=
  match s.stack with
  | [] => .done s.out
  | e :: es =>
    match e.rest with
    | [] => .done s.out
    | .chr c :: t =>
      let (es', o) := settle ({ e with rest := t } :: es) s.opened
      .more ⟨es', o, s.out ++ [c]⟩
    | .ref n :: t =>
      let (es', o) := settle ({ e with rest := t } :: es) s.opened
      match d n with
      | none => .undeclared
      | some text =>
        if n ∈ o ∨ e.name = some n then .recursion
        else .more ⟨if text = [] then es' else ⟨some n, text⟩ :: es', n :: o, s.out⟩

/-- Reading for a number of steps (parser:1622-1683). -/
def run (d : Decl) : Nat → State → Result
  | 0, s => .more s
  | k + 1, s =>
    match step d s with
    | .more s' => run d k s'
    | r => r

/-- The start of a document. -/
def start (doc : List Tok) : State := ⟨[⟨none, doc⟩], [], []⟩

end Verif.PyXml.Ent
