import Verif.Model.Py

/-!
# Uniform resource identifiers: what the properties talk about (RFC 2396)
-/

namespace Verif.Spec

open Verif

/-- The characters that may stand for themselves in a URI (RFC 2396, section 2): letters, digits, marks and reserved
characters. -/
def uriChar (c : Char) : Bool :=
  ('A' ≤ c && c ≤ 'Z') || ('a' ≤ c && c ≤ 'z') || ('0' ≤ c && c ≤ '9') ||
  c ∈ ['-', '_', '.', '!', '~', '*', '\'', '(', ')', ';', '/', '?', ':', '@', '&', '=', '+', '$', ',']

/-- Hexadecimal digits. -/
def hexDigit (c : Char) : Bool := ('0' ≤ c && c ≤ '9') || ('A' ≤ c && c ≤ 'F') || ('a' ≤ c && c ≤ 'f')

/-- Value of a hexadecimal digit. -/
def hexDigitVal (c : Char) : Nat :=
  if c ≤ '9' then c.toNat - '0'.toNat else if c ≤ 'F' then c.toNat - 'A'.toNat + 10 else c.toNat - 'a'.toNat + 10

/-- Text made of URI characters and `%` escapes with two hexadecimal digits. -/
inductive UriText : Str → Prop where
  | nil : UriText []
  | char (c : Char) (t : Str) : uriChar c = true → UriText t → UriText (c :: t)
  | escape (a b : Char) (t : Str) : hexDigit a = true → hexDigit b = true → UriText t → UriText ('%' :: a :: b :: t)

/-- Text in which every percent sign begins an escape with two hexadecimal digits. -/
inductive Escapes : Str → Prop where
  | nil : Escapes []
  | char (c : Char) (t : Str) : c ≠ '%' → Escapes t → Escapes (c :: t)
  | escape (a b : Char) (t : Str) : hexDigit a = true → hexDigit b = true → Escapes t → Escapes ('%' :: a :: b :: t)

/-- Text in which every percent sign either begins an escape or is followed by a character that is neither a hexadecimal
digit nor a percent sign. -/
inductive Percents : Str → Prop where
  | nil : Percents []
  | char (c : Char) (t : Str) : c ≠ '%' → Percents t → Percents (c :: t)
  | escape (a b : Char) (t : Str) : hexDigit a = true → hexDigit b = true → Percents t → Percents ('%' :: a :: b :: t)
  | lone (c : Char) (t : Str) : hexDigit c = false → c ≠ '%' → Percents t → Percents ('%' :: c :: t)

/-- The octets that a text with escapes stands for: an escape stands for one octet, everything else for itself. -/
def decode : Str → Str
  | '%' :: a :: b :: t =>
    if hexDigit a && hexDigit b then Char.ofNat (16 * hexDigitVal a + hexDigitVal b) :: decode t
    else '%' :: decode (a :: b :: t)
  | c :: t => c :: decode t
  | [] => []

/-- The components of a URI reference. -/
structure Components where
  scheme : Option Str
  opaquePart : Option Str
  authority : Option Str
  absPath : Option Str
  relPath : Option Str
  query : Option Str
  fragment : Option Str
deriving DecidableEq, Repr

/-- The text composed of the components (RFC 2396, section 5.2 step 7). -/
def Components.text (c : Components) : Str :=
  (c.scheme.elim [] (· ++ [':'])) ++
  c.opaquePart.getD [] ++
  (c.authority.elim [] ('/' :: '/' :: ·)) ++
  c.absPath.getD [] ++
  c.relPath.getD [] ++
  (c.query.elim [] ('?' :: ·)) ++
  (c.fragment.elim [] ('#' :: ·))

/-- A scheme name: a letter followed by letters, digits and `+-.`. -/
def schemeName (s : Str) : Bool :=
  match s with
  | [] => false
  | c :: t =>
    (('A' ≤ c && c ≤ 'Z') || ('a' ≤ c && c ≤ 'z')) &&
    t.all (fun d => ('A' ≤ d && d ≤ 'Z') || ('a' ≤ d && d ≤ 'z') || ('0' ≤ d && d ≤ '9') || d ∈ ['+', '-', '.'])

/-- The shape of the components: which characters end each of them and which of them exclude each other. -/
structure Components.WF (c : Components) : Prop where
  /-- the scheme is a scheme name -/
  scheme : ∀ s, c.scheme = some s → schemeName s = true
  /-- an opaque part only follows a scheme, is not empty, does not begin with a slash and is alone -/
  opaquePart : ∀ o, c.opaquePart = some o → c.scheme ≠ none ∧ o ≠ [] ∧ o.head? ≠ some '/' ∧
    c.authority = none ∧ c.absPath = none ∧ c.relPath = none ∧ c.query = none
  /-- the authority ends at a slash or question mark -/
  authority : ∀ a, c.authority = some a → '/' ∉ a ∧ '?' ∉ a
  /-- an absolute path begins with a slash and ends at a question mark; without authority it has not got two slashes -/
  absPath : ∀ p, c.absPath = some p → p.head? = some '/' ∧ '?' ∉ p ∧
    (c.authority = none → ∀ t, p ≠ '/' :: '/' :: t)
  /-- a relative path ends at a question mark, does not begin with a slash, excludes scheme, authority and absolute path -/
  relPath : ∀ p, c.relPath = some p → p.head? ≠ some '/' ∧ '?' ∉ p ∧
    c.scheme = none ∧ c.authority = none ∧ c.absPath = none
  /-- a reference without scheme has some path or an authority, and does not begin like a scheme -/
  relative : c.scheme = none → (c.authority = none → c.absPath = none → c.relPath ≠ none) ∧
    ∀ p s t, c.relPath = some p → p = s ++ ':' :: t → schemeName s = false
  /-- a query follows an authority or a path -/
  query : c.query ≠ none → c.authority ≠ none ∨ c.absPath ≠ none ∨ c.relPath ≠ none

/-! ## Paths -/

/-- Where a list of path segments leads, starting from a directory: how many levels up, then which directories down (the
innermost first), and the last segment, which is empty for a directory. -/
structure Place where
  ups : Nat
  down : List Str
  last : Str
deriving DecidableEq, Repr

/-- One step up. -/
def stepUp (ups : Nat) (down : List Str) : Nat × List Str :=
  match down with
  | [] => (ups + 1, [])
  | _ :: d => (ups, d)

/-- Follow the segments. -/
def follow (ups : Nat) (down : List Str) : List Str → Place
  | [] => ⟨ups, down, []⟩
  | [s] =>
    if s = ['.'] then ⟨ups, down, []⟩
    else if s = ['.', '.'] then ⟨(stepUp ups down).1, (stepUp ups down).2, []⟩
    else ⟨ups, down, s⟩
  | s :: rest =>
    if s = ['.'] then follow ups down rest
    else if s = ['.', '.'] then follow (stepUp ups down).1 (stepUp ups down).2 rest
    else follow ups (s :: down) rest

/-- The place a path denotes. -/
def place (segs : List Str) : Place := follow 0 [] segs

/-- The shortest list of segments for a place. -/
def Place.segments (p : Place) : List Str := List.replicate p.ups ['.', '.'] ++ p.down.reverse ++ [p.last]

end Verif.Spec
