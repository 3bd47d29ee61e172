import Verif.Model.Abnf

/-!
# Texts of grammars

Models how `RFC2234ABNFParser` of `pyslet/pyslet/rfc2234.py` (cited as *abnf*) reads the rules of a text: lines, names, alternations
and concatenations.  `ParseElement` (abnf:983-997) is an argument, as are the calls it makes to these functions for groups.

The state is the rest of the text, an error keeps the rule base (going back does not undo what was added to it).  Loops take an
argument that bounds their turns; `fuel` is the error when it is used up.
-/

namespace Verif.AbnfText
open Verif Verif.Abnf

/-- Exceptions: `RFCSyntaxError`, a subclass of `RFCParserError` and not of `RFC2234Error` (abnf:37-61); `RFC2234Error` and its
subclass `RFC2234RuleError`; any other; and the bound of loops. -/
inductive PErr
  | syntax | rfc2234 | other | fuel
deriving DecidableEq, Repr

/-- The result of a method: a value, the rule base and the rest of the text; or an exception and the rule base. -/
abbrev Result (α : Type) := Except (PErr × Base) (α × Base × Text)

/-- `IsWSP` (abnf:298-299). -/
def isWSP (c : Nat) : Bool := c == 32 || c == 9

/-- `IsDIGIT` (abnf:274-275). -/
def isDigit (c : Nat) : Bool := 48 ≤ c && c ≤ 57

/-- `ParseCRLF` (abnf:351-358). -/
def parseCRLF : Text → Option Text
  | 13 :: 10 :: r => some r
  | _ => none

/-- The characters of a comment (abnf:918-920). -/
def commentChar (c : Nat) : Bool := isWSP c || (33 ≤ c && c ≤ 126)

/-- `ParseCNl` (abnf:907-912) with `ParseComment` (abnf:914-924). -/
def parseCNl : Text → Option Text
  | 59 :: r => parseCRLF (r.dropWhile commentChar)
  | t => parseCRLF t

/-- `ParseCWsp` (abnf:884-889). -/
def parseCWsp (t : Text) : Option Text :=
  match t with
  | [] => none
  | c :: r =>
    if isWSP c then some r
    else match parseCNl t with
      | some (d :: r') => if isWSP d then some r' else none
      | _ => none

/-- `ParseCWspRepeat` (abnf:891-905): white space as long as there is some. -/
def parseCWspRepeat : Nat → Text → Text
  | 0, t => t
  | n + 1, t => match parseCWsp t with
    | some r => parseCWspRepeat n r
    | none => t

/-- `ParseDIGITRepeat` (abnf:376-384). -/
def digits : Option Nat → Text → Option Nat × Text
  | v, [] => (v, [])
  | v, c :: r => if isDigit c then digits (some (v.getD 0 * 10 + (c - 48))) r else (v, c :: r)

section
variable (element : Base → Text → Result Nat)

/-- `ParseRepetition` (abnf:963-968) with `ParseRepeat` (abnf:970-981). -/
def parseRepetition (b : Base) (t : Text) : Result Nat :=
  let go (min : Nat) (max : Option Nat) (r : Text) : Result Nat :=
    match element b r with
    | .error e => .error e
    | .ok (i, b', r') => .ok (((b'.addRule (.rep min max i)).2), (b'.addRule (.rep min max i)).1, r')
  match t with
  | [] => element b t
  | c :: _ =>
    if isDigit c || c == 42 then
      match digits none t with
      | (min, 42 :: r) => go (min.getD 0) (digits none r).1 (digits none r).2
      | (some min, r) => go min (some min) r
      | (none, _) => .error (.syntax, b)
    else element b t

/-- The loop of `ParseConcatenation` (abnf:948-957): what is in the `try` goes on or fails; only an `RFC2234Error` ends the loop, and
then the text is as before. -/
def moreRepetitions : Nat → List Nat → Base → Text → Result (List Nat)
  | _, is, b, [] => .ok (is, b, [])
  | 0, _, b, _ :: _ => .error (.fuel, b)
  | n + 1, is, b, c :: r =>
    match parseCWsp (c :: r) with
    | none => .error (.syntax, b)
    | some t =>
      match parseRepetition element b (parseCWspRepeat t.length t) with
      | .ok (i, b', t') => moreRepetitions n (is ++ [i]) b' t'
      | .error (e, b') => if e = .rfc2234 then .ok (is, b', c :: r) else .error (e, b')

/-- `ParseConcatenation` (abnf:945-961). -/
def parseConcatenation (n : Nat) (b : Base) (t : Text) : Result Nat :=
  match parseRepetition element b t with
  | .error e => .error e
  | .ok (i, b', t') =>
    match moreRepetitions element n [i] b' t' with
    | .error e => .error e
    | .ok ([j], b'', t'') => .ok (j, b'', t'')
    | .ok (is, b'', t'') => .ok ((b''.addRule (.seq is)).2, (b''.addRule (.seq is)).1, t'')

/-- The loop of `ParseAlternation` (abnf:929-939). -/
def moreConcatenations : Nat → List Nat → Base → Text → Result (List Nat)
  | _, is, b, [] => .ok (is, b, [])
  | 0, _, b, _ :: _ => .error (.fuel, b)
  | n + 1, is, b, c :: r =>
    match parseCWspRepeat (c :: r).length (c :: r) with
    | 47 :: t =>
      match parseConcatenation element n b (parseCWspRepeat t.length t) with
      | .ok (i, b', t') => moreConcatenations n (is ++ [i]) b' t'
      | .error (e, b') => if e = .rfc2234 then .ok (is, b', c :: r) else .error (e, b')
    | _ => .error (.syntax, b)

/-- `ParseAlternation` (abnf:926-943). -/
def parseAlternation (n : Nat) (b : Base) (t : Text) : Result Nat :=
  match parseConcatenation element n b t with
  | .error e => .error e
  | .ok (i, b', t') =>
    match moreConcatenations element n [i] b' t' with
    | .error e => .error e
    | .ok ([j], b'', t'') => .ok (j, b'', t'')
    | .ok (is, b'', t'') => .ok ((b''.addRule (.alt is)).2, (b''.addRule (.alt is)).1, t'')

/-- `ParseRulename` (abnf:858-863). -/
def parseRulename (t : Text) : Option (Text × Text) :=
  match t with
  | c :: r =>
    if isAlpha c then
      some (c :: r.takeWhile fun d => isAlpha d || isDigit d || d == 45, r.dropWhile fun d => isAlpha d || isDigit d || d == 45)
    else none
  | [] => none

/-- `ParseDefinedAs` (abnf:865-877). -/
def parseDefinedAs (t : Text) : Option (Bool × Text) :=
  match parseCWspRepeat t.length t with
  | 61 :: 47 :: r => some (true, parseCWspRepeat r.length r)
  | 61 :: r => some (false, parseCWspRepeat r.length r)
  | _ => none

/-- `ParseRule` (abnf:850-856) with `ParseElements` (abnf:879-882). -/
def parseRule (n : Nat) (b : Base) (t : Text) : Result Unit :=
  match parseRulename t with
  | none => .error (.syntax, b)
  | some (name, t1) =>
    match parseDefinedAs t1 with
    | none => .error (.syntax, b)
    | some (incremental, t2) =>
      match parseAlternation element n b t2 with
      | .error e => .error e
      | .ok (i, b', t3) =>
        match parseCNl (parseCWspRepeat t3.length t3) with
        | none => .error (.syntax, b')
        | some t4 =>
          match b'.defineRule name incremental i with
          | .ok b'' => .ok ((), b'', t4)
          | .error .rule => .error (.rfc2234, b')
          | .error _ => .error (.other, b')

/-- `ParseRulelist` (abnf:838-848); `more` tells that a line was read before. -/
def parseRulelist : Nat → Bool → Base → Text → Result Unit
  | _, more, b, [] => if more then .ok ((), b, []) else .error (.syntax, b)
  | 0, _, b, _ :: _ => .error (.fuel, b)
  | n + 1, _, b, c :: r =>
    if isAlpha c then
      match parseRule element n b (c :: r) with
      | .error e => .error e
      | .ok (_, b', t) => parseRulelist n true b' t
    else
      match parseCNl (parseCWspRepeat (c :: r).length (c :: r)) with
      | none => .error (.syntax, b)
      | some t => parseRulelist n true b t

end

end Verif.AbnfText
