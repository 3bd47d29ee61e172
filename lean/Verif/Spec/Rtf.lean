import Verif.Model.Rtf
import Verif.Spec.XsdText

/-!
# Rich Text Format documents

Only the type of the tokens is taken from the model.
-/

namespace Verif.Spec.Rtf

open Verif
open Verif.Rtf (Token Tag)

/-- Every start tag has its end tag, and elements do not overlap. -/
inductive Nested : List Token → Prop where
  | nil : Nested []
  | text (s) : Nested [.text s]
  | br : Nested [.br]
  | element {l} (t) : Nested l → Nested (.stag t :: l ++ [.etag t])
  | append {l m} : Nested l → Nested m → Nested (l ++ m)

/-- Sizes of type: below 11 points, 11 to 13 points, above 13 points. -/
inductive Size where
  | small | normal | big
deriving DecidableEq, Repr

/-- How a character looks. -/
structure Look where
  bold : Bool
  italic : Bool
  size : Size
deriving DecidableEq, Repr

/-- Unformatted text. -/
def Look.plain : Look := ⟨false, false, .normal⟩

/-- What the reader sees. -/
inductive Sign where
  | char (c : Char) (look : Look)
  | par
  | line
deriving DecidableEq, Repr

/-! ## What marked up text shows -/

/-- The look inside some elements. -/
def lookIn (l : List Tag) : Look :=
  ⟨decide (.b ∈ l), decide (.i ∈ l), if .big ∈ l then .big else if .small ∈ l then .small else .normal⟩

/-- What tokens show, inside some elements; a paragraph shows as a paragraph break before it. -/
def shown : List Tag → List Token → List Sign
  | _, [] => []
  | o, .text s :: r => s.map (.char · (lookIn o)) ++ shown o r
  | o, .br :: r => .line :: shown o r
  | o, .stag t :: r => (if t = .p then [.par] else []) ++ shown (t :: o) r
  | o, .etag t :: r => shown (o.erase t) r

/-! ## Documents -/

/-- The parts of a document. -/
inductive Item where
  | char (c : Char)
  /-- a character given by its number, with the text shown by old readers -/
  | unicode (c : Char) (fallback : Str)
  /-- from here on, characters given by number have fallback texts of this length -/
  | skip (n : Nat)
  /-- bold on, or off with parameter 0 -/
  | bold (param : Option Int)
  | italic (param : Option Int)
  /-- the size in half points -/
  | size (n : Int)
  | plain
  | par
  | line
  /-- the tabulator and quotation marks -/
  | special (name : Str) (c : Char)
  /-- words that do not change text, bold, italic and size -/
  | other (name : Str) (param : Option Int)
  | group (items : List Item)
  /-- a group that is not part of the text -/
  | hidden (name : Str) (items : List Item)

/-- Bold and italic are switched off by 0. -/
def on : Option Int → Bool
  | some n => n ≠ 0
  | none => true

/-- The size of type of `n` half points. -/
def sizeOf (n : Int) : Size := if n < 22 then .small else if n > 26 then .big else .normal

/-- The look after an item.  Changes end with the group. -/
def Item.after (f : Look) : Item → Look
  | .bold p => { f with bold := on p }
  | .italic p => { f with italic := on p }
  | .size n => { f with size := sizeOf n }
  | .plain => .plain
  | _ => f

mutual
/-- What an item shows. -/
def Item.signs (f : Look) : Item → List Sign
  | .char c => [.char c f]
  | .unicode c _ => [.char c f]
  | .special _ c => [.char c f]
  | .par => [.par]
  | .line => [.line]
  | .group items => signs f items
  | _ => []
/-- What a document shows. -/
def signs (f : Look) : List Item → List Sign
  | [] => []
  | i :: r => i.signs f ++ signs (i.after f) r
end

/-! ## The notation -/

/-- Characters with a meaning of their own. -/
def Reserved (c : Char) : Prop := c = '\\' ∨ c = '{' ∨ c = '}'

/-- Letters of control words. -/
def Letter (c : Char) : Prop := ('a' ≤ c ∧ c ≤ 'z') ∨ ('A' ≤ c ∧ c ≤ 'Z')

/-- A number as parameter. -/
inductive Param : Option Int → Str → Prop where
  | none : Param none []
  | plain {s n} : NaturalText s n → Param (some n) s
  | minus {s n} : NaturalText s n → Param (some (-n)) ('-' :: s)

/-- What follows a control word: a space that belongs to the word, or an ASCII character that cannot be part of the
word, or nothing. -/
inductive Delimited : Str → Str → Prop where
  | space (s) : Delimited s (' ' :: s)
  | nil : Delimited [] []
  | other {c} (s) : c.toNat < 128 → ¬ Letter c → ¬ IsDigit c → c ≠ '-' → c ≠ ' ' → Delimited (c :: s) (c :: s)

/-- The characters with control words of their own. -/
def specials : List (Str × Char) :=
  [("tab".toList, '\t'), ("lquote".toList, '‘'), ("rquote".toList, '’'), ("ldblquote".toList, '“'),
    ("rdblquote".toList, '”')]

/-- Words that do not change what is shown here. -/
def others : List Str :=
  ["rtf", "ansi", "mac", "pc", "pca", "ansicpg", "deff", "viewkind", "li", "sb", "sa", "tx", "ulw", "pard", "f",
    "fcharset"].map String.toList

/-- Words that begin groups outside the text. -/
def destinations : List Str := ["fonttbl", "colortbl", "stylesheet", "info"].map String.toList

/-- The control words of the simple items. -/
inductive Word : Item → Str → Option Int → Prop where
  | bold (p) : Word (.bold p) "b".toList p
  | italic (p) : Word (.italic p) "i".toList p
  | size (n) : Word (.size n) "fs".toList (some n)
  | plain : Word .plain "plain".toList none
  | par : Word .par "par".toList none
  | line : Word .line "line".toList none
  | special {n c} : (n, c) ∈ specials → Word (.special n c) n none
  | other {n} (p) : n ∈ others → Word (.other n p) n p
  | lang (n) : Word (.other "lang".toList (some n)) "lang".toList (some n)

/-- The number written for a character: above U+7FFF they are written as negative numbers. -/
def number (c : Char) : Int := if c.toNat < 0x8000 then c.toNat else c.toNat - 0x10000

/-- The text written for a document; `u` is the length of fallback texts. -/
inductive Writes : Nat → List Item → Str → Prop where
  | nil (u) : Writes u [] []
  | char {u c r s} : ¬ Reserved c → c ≠ '\n' → c ≠ '\r' → Writes u r s → Writes u (.char c :: r) (c :: s)
  /-- reserved characters are preceded by a backslash -/
  | escaped {u c r s} : Reserved c → Writes u r s → Writes u (.char c :: r) ('\\' :: c :: s)
  /-- lines may be broken anywhere -/
  | newline {u r s} (c) : c = '\n' ∨ c = '\r' → Writes u r s → Writes u r (c :: s)
  | unicode {u c fb d r s t} : c.toNat < 0x10000 → fb.length = u → (∀ x ∈ fb, ¬ Reserved x) → Param (some (number c)) d →
      Writes u r s → Delimited (fb ++ s) t → Writes u (.unicode c fb :: r) ('\\' :: 'u' :: d ++ t)
  | skip {u n d r s t} : NaturalText d n → Writes n r s → Delimited s t →
      Writes u (.skip n :: r) ('\\' :: 'u' :: 'c' :: d ++ t)
  | word {u i n p d r s t} : Word i n p → Param p d → Writes u r s → Delimited s t →
      Writes u (i :: r) ('\\' :: n ++ d ++ t)
  | group {u is r s t} : Writes u is s → Writes u r t → Writes u (.group is :: r) ('{' :: s ++ '}' :: t)
  | hidden {u n is r s s' t} : n ∈ destinations → Writes u is s → Delimited s s' → Writes u r t →
      Writes u (.hidden n is :: r) ('{' :: '\\' :: n ++ s' ++ '}' :: t)

/-- The commands that are given with a number have one, and it is not too large. -/
def NumbersGiven (s : Str) : Prop :=
  ∀ a w b, s = a ++ '\\' :: w ++ b → w ∈ ["u", "uc", "lang"].map String.toList → (∀ c, b.head? = some c → ¬ Letter c) →
    ∃ d r, b = d ++ r ∧ d ≠ [] ∧ (∀ c ∈ d, IsDigit c) ∧ (∀ c, r.head? = some c → ¬ IsDigit c) ∧
      (w = "u".toList → digitsValue d < 0xD800)

/-! ## A part of the format -/

/-- Backslashes only before letters. -/
def OnlyWords (s : Str) : Prop := ∀ a b, s = a ++ '\\' :: b → ∃ c r, b = c :: r ∧ Letter c

/-- Items without groups and without formatting. -/
def Item.Flat : Item → Prop
  | .bold _ | .italic _ | .size _ | .plain | .group _ | .hidden _ _ => False
  | .unicode c _ => c.toNat < 0x8000
  | _ => True

mutual
/-- Entries of the table of fonts. -/
def Item.FontEntry : Item → Prop
  | .char _ => True
  | .other _ _ => True
  | .group is => FontEntries is
  | _ => False
/-- Lists of entries of the table of fonts. -/
def FontEntries : List Item → Prop
  | [] => True
  | i :: r => i.FontEntry ∧ FontEntries r
end

mutual
/-- The item is supported where the text has the look `f`: groups are opened in unformatted text or have no formatting
and no groups in them; characters given by number are below U+8000; the only hidden group is the table of fonts. -/
def Item.Supported (f : Look) : Item → Prop
  | .unicode c _ => c.toNat < 0x8000
  | .group is => (f = .plain ∧ Supported f is) ∨ ∀ i ∈ is, i.Flat
  | .hidden n is => f = .plain ∧ n = "fonttbl".toList ∧ FontEntries is
  | _ => True
/-- All items are supported. -/
def Supported (f : Look) : List Item → Prop
  | [] => True
  | i :: r => i.Supported f ∧ Supported (i.after f) r
end

end Verif.Spec.Rtf
