import Verif.Spec.Names

/-!
# Reading XML text

The productions of XML 1.0 that the written documents use, as a relation between a text and the tree
an XML processor reports for it.  Everything the relation accepts is well-formed XML 1.0; it leaves
out what the code never writes (attribute values in single quotes, white space before the end of a
tag, carriage returns outside CDATA sections, document type declarations, processing instructions, hexadecimal references,
and a bare `>` in character data).
-/

namespace Verif.Spec

/-- What an XML processor reports: characters and elements. -/
inductive Node where
  | chr (c : Char)
  | elem (name : Str) (attrs : List (Str × Str)) (kids : List Node)

/-- Production [2] Char. -/
def XmlChar (c : Char) : Prop :=
  let n := c.toNat
  n = 0x9 ∨ n = 0xA ∨ n = 0xD ∨ (0x20 ≤ n ∧ n ≤ 0xD7FF) ∨ (0xE000 ≤ n ∧ n ≤ 0xFFFD) ∨ 0x10000 ≤ n

/-- Production [5] Name. -/
def XmlName (s : Str) : Prop := ∃ c t, s = c :: t ∧ XmlNameStart c ∧ ∀ d ∈ t, XmlNameChar d

/-- The number written with the given decimal digits. -/
def decimal (ds : Str) : Nat := ds.foldl (fun n d => 10 * n + (d.toNat - 48)) 0

/-- Productions [66] and [68]: the text between `&` and `;` and the character it stands for. -/
inductive Ref : Str → Char → Prop
  | amp : Ref ['a', 'm', 'p'] '&'
  | lt : Ref ['l', 't'] '<'
  | gt : Ref ['g', 't'] '>'
  | quot : Ref ['q', 'u', 'o', 't'] '"'
  | apos : Ref ['a', 'p', 'o', 's'] '\''
  | num (ds : Str) (c : Char) : ds ≠ [] → (∀ d ∈ ds, 48 ≤ d.toNat ∧ d.toNat ≤ 57) →
      decimal ds = c.toNat → XmlChar c → Ref ('#' :: ds) c

/-- Production [10] and section 3.3.3: the text between the quotes of an attribute and its value;
white space is reported as spaces. -/
inductive AttVal : Str → Str → Prop
  | nil : AttVal [] []
  | chr (c : Char) {s v : Str} : XmlChar c → c ≠ '<' → c ≠ '&' → c ≠ '"' → c ≠ '\t' → c ≠ '\n' → c ≠ '\r' →
      AttVal s v → AttVal (c :: s) (c :: v)
  | space (c : Char) {s v : Str} : c = '\t' ∨ c = '\n' → AttVal s v → AttVal (c :: s) (' ' :: v)
  | ref {r : Str} {c : Char} {s v : Str} : Ref r c → AttVal s v → AttVal ('&' :: r ++ ';' :: s) (c :: v)

/-- Production [3] S, not empty and without carriage returns. -/
def Space (w : Str) : Prop := w ≠ [] ∧ ∀ c ∈ w, c = ' ' ∨ c = '\t' ∨ c = '\n'

/-- Production [41], repeated: the text after the name of an element, and the attributes. -/
inductive Attrs : Str → List (Str × Str) → Prop
  | nil : Attrs [] []
  | cons {w n v val s : Str} {as : List (Str × Str)} : Space w → XmlName n → AttVal v val → Attrs s as →
      Attrs (w ++ n ++ '=' :: '"' :: v ++ '"' :: s) ((n, val) :: as)

/-- `s` occurs in `t`. -/
def Occurs (s t : Str) : Prop := s <:+: t

/-- Section 2.11: a carriage return, with or without a line feed after it, is reported as a line feed. -/
def lineEnds : Str → Str
  | '\r' :: '\n' :: t => '\n' :: lineEnds t
  | '\r' :: t => '\n' :: lineEnds t
  | c :: t => c :: lineEnds t
  | [] => []

/-- Productions [39]-[44], [18]-[21], [15]: the text of some content and what is reported for it.
Comments are not reported.  No attribute is given twice. -/
inductive Reads : Str → List Node → Prop
  | nil : Reads [] []
  | chr (c : Char) {s : Str} {ns : List Node} : XmlChar c → c ≠ '<' → c ≠ '&' → c ≠ '>' → c ≠ '\r' →
      Reads s ns → Reads (c :: s) (.chr c :: ns)
  | ref {r : Str} {c : Char} {s : Str} {ns : List Node} : Ref r c → Reads s ns →
      Reads ('&' :: r ++ ';' :: s) (.chr c :: ns)
  | cdata {d s : Str} {ns : List Node} : (∀ c ∈ d, XmlChar c) →
      ¬ Occurs [']', ']', '>'] (d ++ [']', ']']) → Reads s ns →
      Reads ('<' :: '!' :: '[' :: 'C' :: 'D' :: 'A' :: 'T' :: 'A' :: '[' :: d ++ ']' :: ']' :: '>' :: s)
        ((lineEnds d).map .chr ++ ns)
  | comment {d s : Str} {ns : List Node} : (∀ c ∈ d, XmlChar c ∧ c ≠ '\r') →
      ¬ Occurs ['-', '-'] (d ++ ['-']) → Reads s ns →
      Reads ('<' :: '!' :: '-' :: '-' :: d ++ '-' :: '-' :: '>' :: s) ns
  | elem {n a k s : Str} {as : List (Str × Str)} {ks ns : List Node} : XmlName n → Attrs a as →
      (as.map Prod.fst).Nodup → Reads k ks → Reads s ns →
      Reads ('<' :: n ++ a ++ '>' :: k ++ '<' :: '/' :: n ++ '>' :: s) (.elem n as ks :: ns)
  | empty {n a s : Str} {as : List (Str × Str)} {ns : List Node} : XmlName n → Attrs a as →
      (as.map Prod.fst).Nodup → Reads s ns →
      Reads ('<' :: n ++ a ++ '/' :: '>' :: s) (.elem n as [] :: ns)

/-- A document: an XML declaration, white space and comments, and one element. -/
def ReadsDocument (s : Str) (root : Node) : Prop :=
  ∃ decl body, s = decl ++ body ∧
    (decl = "<?xml version=\"1.0\"?>".toList ∨ decl = "<?xml version=\"1.0\" encoding=\"UTF-8\"?>".toList) ∧
    ∃ w w' : Str, (∀ c ∈ w ++ w', c = ' ' ∨ c = '\t' ∨ c = '\n') ∧
      Reads body (w.map .chr ++ root :: w'.map .chr)

end Verif.Spec
