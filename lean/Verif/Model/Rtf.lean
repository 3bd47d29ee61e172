import Verif.Model.Py

/-!
# The RTF tokenizer

`RTFParser` (/repo/QTIMigration/lib/rtfutils.py:34-295).  Simplifications: what is printed for unknown control
words is left out; `unichr` of a surrogate is the error `unmodelled`; `unichr` accepts all code points up to
U+10FFFF (a wide Python build).  The character tests `isalpha`, `isdigit` and the value of digits outside ASCII are
parameters.
-/

namespace Verif.Rtf

open Verif

/-- `unicode.isalpha`, `unicode.isdigit` and the decimal value known to `int`, for characters outside ASCII. -/
structure Tables where
  alpha : Char → Bool
  digit : Char → Bool
  value : Char → Option Nat

/-- `c.isalpha()` (rtfutils.py:195, 243). -/
def Tables.isAlpha (T : Tables) (c : Char) : Bool := if c.toNat < 128 then Py.isLetter c else T.alpha c

/-- `c.isdigit()` (rtfutils.py:231, 258). -/
def Tables.isDigit (T : Tables) (c : Char) : Bool := if c.toNat < 128 then Py.isDigit c else T.digit c

/-- The value of a digit (rtfutils.py:266). -/
def Tables.digitValue (T : Tables) (c : Char) : Option Nat :=
  if c.toNat < 128 then (if Py.isDigit c then some (c.toNat - 48) else none) else T.value c

/-- The character formatting of `RTFState` (rtfutils.py:46-49). -/
structure Format where
  bold : Int
  italic : Int
  size : Int
deriving DecidableEq, Repr

/-- `ResetFormatting` (rtfutils.py:46-49). -/
def Format.reset : Format := ⟨0, 0, 0⟩

/-- `RTFState` (rtfutils.py:34-49).  `uc` is `none` after a `\uc` without parameter. -/
structure RState where
  uc : Option Int
  ignoreGroup : Bool
  format : Format
deriving DecidableEq, Repr

/-- `RTFState.__init__` (rtfutils.py:35-38). -/
def RState.init : RState := ⟨some 1, false, .reset⟩

/-- `Clone` (rtfutils.py:40-44): the formatting is not copied. -/
def RState.clone (s : RState) : RState := ⟨s.uc, s.ignoreGroup, .reset⟩

/-- The names of the tags (rtfutils.py:53-60, 135). -/
inductive Tag where
  | b | i | big | small | p
deriving DecidableEq, Repr

/-- `GetFormatTags` (rtfutils.py:51-61). -/
def Format.tags (f : Format) : List Tag :=
  (if f.bold ≠ 0 then [.b] else []) ++ (if f.italic ≠ 0 then [.i] else []) ++
    (if f.size > 0 then [.big] else if f.size < 0 then [.small] else [])

/-- The tokens (rtfutils.py:135-136, 142, 284-290). -/
inductive Token where
  | stag (t : Tag)
  | etag (t : Tag)
  /-- the line break `br` -/
  | br
  | text (s : Str)
deriving DecidableEq, Repr

/-- The parser (rtfutils.py:85-95, 188-192). -/
structure Parser where
  input : Str
  pos : Int
  tokens : List Token
  chars : Str
  formatTags : List Tag
  state : RState
  stack : List RState
  popen : Bool
deriving DecidableEq, Repr

/-- `self.c`, that is `self.input[self.pos:self.pos+1]` (rtfutils.py:295): negative positions count from the end,
and -1 gives nothing. -/
def charAt (input : Str) (pos : Int) : Option Char :=
  if 0 ≤ pos then input[pos.toNat]?
  else if pos = -1 then none
  else if 0 ≤ input.length + pos then input[(input.length + pos).toNat]?
  else none

/-- `self.c` (rtfutils.py:295). -/
def Parser.c (p : Parser) : Option Char := charAt p.input p.pos

/-- `Consume` (rtfutils.py:293-295). -/
def Parser.consume (p : Parser) (n : Int) : Parser := { p with pos := p.pos + n }

theorem pos_lt_of_c {p : Parser} {c : Char} (h : p.c = some c) : p.pos < p.input.length := by
  unfold Parser.c charAt at h
  split at h
  · have := (List.getElem?_eq_some_iff.mp h).1
    omega
  · omega

/-- `EndString` (rtfutils.py:281-291): the list of tags is reversed in place. -/
def Parser.endString (p : Parser) : Parser :=
  if p.chars = [] then p
  else { p with
    tokens := p.tokens ++ p.formatTags.map .stag ++ [.text p.chars] ++ p.formatTags.reverse.map .etag
    formatTags := p.formatTags.reverse
    chars := [] }

/-- `StateChanged` (rtfutils.py:275-279). -/
def Parser.stateChanged (p : Parser) : Parser :=
  if p.state.format.tags ≠ p.formatTags then { p.endString with formatTags := p.state.format.tags } else p

/-- `ParseLetterSequence` (rtfutils.py:238-248). -/
def parseLetters (T : Tables) (p : Parser) : Str × Parser :=
  match h : p.c with
  | none => ([], p)
  | some c =>
    if T.isAlpha c then
      let r := parseLetters T (p.consume 1)
      (c :: r.1, r.2)
    else ([], p)
termination_by (p.input.length - p.pos).toNat
decreasing_by
  have := pos_lt_of_c h
  simp only [Parser.consume]
  omega

/-- The loop of `ParseNumber` (rtfutils.py:257-262). -/
def parseDigits (T : Tables) (p : Parser) : Str × Parser :=
  match h : p.c with
  | none => ([], p)
  | some c =>
    if T.isDigit c then
      let r := parseDigits T (p.consume 1)
      (c :: r.1, r.2)
    else ([], p)
termination_by (p.input.length - p.pos).toNat
decreasing_by
  have := pos_lt_of_c h
  simp only [Parser.consume]
  omega

/-- `int(s)` of digits (rtfutils.py:266). -/
def intOf (T : Tables) : Nat → Str → Except Err Nat
  | n, [] => .ok n
  | n, c :: cs =>
    match T.digitValue c with
    | some d => intOf T (10 * n + d) cs
    | none => .error .valueError

/-- `ParseNumber` (rtfutils.py:250-266). -/
def parseNumber (T : Tables) (p : Parser) : Except Err (Int × Parser) :=
  let neg := p.c = some '-'
  let r := parseDigits T (if neg then p.consume 1 else p)
  if r.1 = [] then .error .rtfException
  else intOf T 0 r.1 >>= fun n => .ok (if neg then -(n : Int) else n, r.2)

/-- Skip a space (rtfutils.py:233-234). -/
def skipSpace (p : Parser) : Parser := if p.c = some ' ' then p.consume 1 else p

/-- Does a parameter follow? (rtfutils.py:231) -/
def paramFollows (T : Tables) (p : Parser) : Bool :=
  match p.c with
  | some c => T.isDigit c || c = '-'
  | none => false

/-- `ParseControlWord` (rtfutils.py:225-236): name, parameter. -/
def parseControlWord (T : Tables) (p : Parser) : Except Err (Str × Option Int × Parser) :=
  let r := parseLetters T p
  if r.2.c = some ' ' then .ok (r.1, none, r.2.consume 1)
  else if paramFollows T r.2 then parseNumber T r.2 >>= fun q => .ok (r.1, some q.1, skipSpace q.2)
  else .ok (r.1, none, r.2)

/-- `unichr` (rtfutils.py:110). -/
def unichr (param : Option Int) : Except Err Char :=
  match param with
  | none => .error .typeError
  | some n =>
    if n < 0 ∨ n > 0x10FFFF then .error .valueError
    else if 0xD800 ≤ n ∧ n ≤ 0xDFFF then .error .unmodelled
    else .ok (Char.ofNat n.toNat)

/-- The characters of the quotation marks and the tabulator (rtfutils.py:144-157). -/
def quoteChar (name : Str) : Option Char :=
  if name = "tab".toList then some '\t'
  else if name = "lquote".toList then some (Char.ofNat 0x2018)
  else if name = "rquote".toList then some (Char.ofNat 0x2019)
  else if name = "ldblquote".toList then some (Char.ofNat 0x201C)
  else if name = "rdblquote".toList then some (Char.ofNat 0x201D)
  else none

/-- The size given by `\fs` (rtfutils.py:171-179); in Python 2 a missing parameter compares below every number. -/
def fsSize : Option Int → Int
  | none => -1
  | some n => if n < 22 then -1 else if n > 26 then 1 else 0

/-- Replace the formatting and report the change (rtfutils.py:128-129, 162-163, 168-169, 172-179). -/
def Parser.setFormat (p : Parser) (f : Format) : Parser :=
  { p with state := { p.state with format := f } }.stateChanged

/-- The `Handle_...` methods (rtfutils.py:97-186), found by name (rtfutils.py:199): a name with a character outside
ASCII cannot be looked up. -/
def handle (p : Parser) (name : Str) (param : Option Int) : Except Err Parser :=
  if name.any (fun c => c.toNat ≥ 128) then .error .unicodeError
  -- rtfutils.py:105-106
  else if name = "uc".toList then .ok { p with state := { p.state with uc := param } }
  -- rtfutils.py:108-111
  else if name = "u".toList then
    if p.state.ignoreGroup then .ok p
    else unichr param >>= fun c =>
      match p.state.uc with
      | none => .error .typeError
      | some n => .ok ({ p with chars := p.chars ++ [c] }.consume n)
  -- rtfutils.py:113-114
  else if name = "fonttbl".toList then .ok { p with state := { p.state with ignoreGroup := true } }
  -- rtfutils.py:126-129
  else if name = "plain".toList then .ok (p.setFormat .reset)
  -- rtfutils.py:131-137
  else if name = "par".toList then
    let q := p.endString
    .ok { q with tokens := q.tokens ++ (if q.popen then [.etag .p] else []) ++ [.stag .p], popen := true }
  -- rtfutils.py:139-142
  else if name = "line".toList then
    let q := p.endString
    .ok { q with tokens := q.tokens ++ [.br] }
  -- rtfutils.py:159-169
  else if name = "b".toList then .ok (p.setFormat { p.state.format with bold := param.getD 1 })
  else if name = "i".toList then .ok (p.setFormat { p.state.format with italic := param.getD 1 })
  -- rtfutils.py:171-179
  else if name = "fs".toList then .ok (p.setFormat { p.state.format with size := fsSize param })
  -- rtfutils.py:185-186: the warning formats the parameter with %i
  else if name = "lang".toList then
    match param with
    | none => .error .typeError
    | some _ => .ok p
  else match quoteChar name with
    | some c => .ok { p with chars := p.chars ++ [c] }
    -- pard, fcharset, f and unknown words (rtfutils.py:97-99, 116-124, 181-183)
    | none => .ok p

/-- One round of the loop of `TokenizeString` (rtfutils.py:194-219), when `self.c` is `c`. -/
def step (T : Tables) (p : Parser) (c : Char) : Except Err Parser :=
  if c = '\\' then
    let p := p.consume 1
    match p.c with
    | none => .error .typeError
    | some d =>
      if T.isAlpha d then
        parseControlWord T p >>= fun r => handle r.2.2 r.1 r.2.1
      -- control symbols are ignored (rtfutils.py:101-103, 200-204)
      else .ok (p.consume 1)
  else if c = '{' then
    .ok { p.consume 1 with stack := p.state :: p.stack, state := p.state.clone }
  else if c = '}' then
    match p.stack with
    | s :: stack => .ok { p.consume 1 with stack := stack, state := s }.stateChanged
    | [] => .error .rtfException
  else .ok ({ p with chars := if p.state.ignoreGroup then p.chars else p.chars ++ [c] }.consume 1)

/-- The end of `TokenizeString` (rtfutils.py:220-223). -/
def finish (p : Parser) : List Token :=
  p.endString.tokens ++ (if p.popen then [.etag .p] else [])

/-- The loop of `TokenizeString` (rtfutils.py:193-223), for a number of rounds; `none` if it has not ended then. -/
def loop (T : Tables) : Nat → Parser → Option (Except Err (List Token))
  | 0, _ => none
  | n + 1, p =>
    match p.c with
    | none => some (.ok (finish p))
    | some c =>
      match step T p c with
      | .error e => some (.error e)
      | .ok p => loop T n p

/-- `ResetParser` and the beginning of `TokenizeString` (rtfutils.py:89-95, 189-192). -/
def start (input : Str) : Parser := ⟨input, 0, [], [], [], .init, [], false⟩

/-- `TokenizeString` (rtfutils.py:188-223). -/
def tokenize (T : Tables) (fuel : Nat) (input : Str) : Option (Except Err (List Token)) := loop T fuel (start input)

end Verif.Rtf
