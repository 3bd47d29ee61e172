import Verif.Spec.Xml

/-!
# Well-formed documents

The grammar of XML 1.0 (fifth edition) for documents without a document type declaration, as relations between a
text and what an XML processor reports for it, on the text after its line ends have been normalised (section 2.11).

The relations take two tests: `N` for names and `P` for the text of a processing instruction after its target.  The
grammar of the recommendation is that for `XmlName` and `PIText`; smaller tests give part of it.
-/

namespace Verif.Spec

/-- A white space character, production [3]. -/
def SChar (c : Char) : Prop := c = ' ' ∨ c = '\t' ∨ c = '\n' ∨ c = '\r'

/-- White space or nothing. -/
def OptS (w : Str) : Prop := ∀ c ∈ w, SChar c

/-- Production [3] S. -/
def SomeS (w : Str) : Prop := w ≠ [] ∧ OptS w

/-- A decimal digit. -/
def DecDigit (c : Char) : Prop := 48 ≤ c.toNat ∧ c.toNat ≤ 57

/-- A hexadecimal digit and its value. -/
inductive HexDigit : Char → Nat → Prop
  | dec (c : Char) : 48 ≤ c.toNat → c.toNat ≤ 57 → HexDigit c (c.toNat - 48)
  | lower (c : Char) : 97 ≤ c.toNat → c.toNat ≤ 102 → HexDigit c (c.toNat - 97 + 10)
  | upper (c : Char) : 65 ≤ c.toNat → c.toNat ≤ 70 → HexDigit c (c.toNat - 65 + 10)

/-- The number that hexadecimal digits write. -/
inductive HexNumber : Str → Nat → Prop
  | one {c : Char} {v : Nat} : HexDigit c v → HexNumber [c] v
  | more {c : Char} {ds : Str} {n v : Nat} : HexNumber ds n → HexDigit c v → HexNumber (ds ++ [c]) (16 * n + v)

/-- Productions [66]-[68]: the text between `&` and `;`, and the character it stands for in a document without
declarations. -/
inductive XRef : Str → Char → Prop
  | pre {r : Str} {c : Char} : Ref r c → XRef r c
  | hex {ds : Str} {c : Char} : HexNumber ds c.toNat → XmlChar c → XRef ('#' :: 'x' :: ds) c

/-- Production [10] and section 3.3.3: the text between the quotes `q` and the value reported. -/
inductive XAttVal (q : Char) : Str → Str → Prop
  | nil : XAttVal q [] []
  | chr (c : Char) {s v : Str} : XmlChar c → c ≠ '<' → c ≠ '&' → c ≠ q → ¬ SChar c → XAttVal q s v →
      XAttVal q (c :: s) (c :: v)
  | space (c : Char) {s v : Str} : SChar c → XAttVal q s v → XAttVal q (c :: s) (' ' :: v)
  | ref {r : Str} {c : Char} {s v : Str} : XRef r c → XAttVal q s v → XAttVal q ('&' :: r ++ ';' :: s) (c :: v)

/-- A quotation mark. -/
def Quote (q : Char) : Prop := q = '"' ∨ q = '\''

/-- Productions [40] and [41]: the attributes of a tag, each after white space. -/
inductive XAttrs (N : Str → Prop) : Str → List (Str × Str) → Prop
  | nil : XAttrs N [] []
  | cons {w n w1 w2 v val s : Str} {q : Char} {as : List (Str × Str)} : SomeS w → N n → OptS w1 → OptS w2 → Quote q →
      XAttVal q v val → XAttrs N s as →
      XAttrs N (w ++ n ++ w1 ++ '=' :: w2 ++ q :: v ++ q :: s) ((n, val) :: as)

/-- Production [15]: the text between `<!--` and `-->`. -/
def XComment (d : Str) : Prop := (∀ c ∈ d, XmlChar c) ∧ ¬ Occurs ['-', '-'] (d ++ ['-'])

/-- Production [16]: the text between the target of a processing instruction and `?>`. -/
def PIText (d : Str) : Prop :=
  d = [] ∨ ∃ w t, d = w ++ t ∧ SomeS w ∧ (∀ c ∈ t, XmlChar c) ∧ ¬ Occurs ['?', '>'] t

/-- Productions [16] and [17]: the text between `<?` and `?>`. -/
def XPI (N P : Str → Prop) (p : Str) : Prop :=
  ∃ t d, p = t ++ d ∧ N t ∧ t.map Char.toLower ≠ ['x', 'm', 'l'] ∧ P d

/-- Production [43]: the text of the content of an element, and what is reported.  Comments and processing
instructions are not reported.  No attribute is given twice and the name in an end tag is that of the start tag. -/
inductive XContent (N P : Str → Prop) : Str → List Node → Prop
  | nil : XContent N P [] []
  | chr (c : Char) {s : Str} {ns : List Node} : XmlChar c → c ≠ '<' → c ≠ '&' → ¬ [']', ']', '>'] <+: c :: s →
      XContent N P s ns → XContent N P (c :: s) (.chr c :: ns)
  | ref {r : Str} {c : Char} {s : Str} {ns : List Node} : XRef r c → XContent N P s ns →
      XContent N P ('&' :: r ++ ';' :: s) (.chr c :: ns)
  | cdata {d s : Str} {ns : List Node} : (∀ c ∈ d, XmlChar c) → ¬ Occurs [']', ']', '>'] (d ++ [']', ']']) →
      XContent N P s ns → XContent N P ("<![CDATA[".toList ++ d ++ "]]>".toList ++ s) (d.map .chr ++ ns)
  | comment {d s : Str} {ns : List Node} : XComment d → XContent N P s ns →
      XContent N P ("<!--".toList ++ d ++ "-->".toList ++ s) ns
  | pi {d s : Str} {ns : List Node} : XPI N P d → XContent N P s ns →
      XContent N P ("<?".toList ++ d ++ "?>".toList ++ s) ns
  | elem {n a w k w' s : Str} {as : List (Str × Str)} {ks ns : List Node} : N n → XAttrs N a as →
      (as.map Prod.fst).Nodup → OptS w → OptS w' → XContent N P k ks → XContent N P s ns →
      XContent N P ('<' :: n ++ a ++ w ++ '>' :: k ++ '<' :: '/' :: n ++ w' ++ '>' :: s) (.elem n as ks :: ns)
  | empty {n a w s : Str} {as : List (Str × Str)} {ns : List Node} : N n → XAttrs N a as →
      (as.map Prod.fst).Nodup → OptS w → XContent N P s ns →
      XContent N P ('<' :: n ++ a ++ w ++ '/' :: '>' :: s) (.elem n as [] :: ns)

/-- Production [39]: the text of an element. -/
inductive XElement (N P : Str → Prop) : Str → Node → Prop
  | elem {n a w k w' : Str} {as : List (Str × Str)} {ks : List Node} : N n → XAttrs N a as →
      (as.map Prod.fst).Nodup → OptS w → OptS w' → XContent N P k ks →
      XElement N P ('<' :: n ++ a ++ w ++ '>' :: k ++ '<' :: '/' :: n ++ w' ++ ['>']) (.elem n as ks)
  | empty {n a w : Str} {as : List (Str × Str)} : N n → XAttrs N a as → (as.map Prod.fst).Nodup → OptS w →
      XElement N P ('<' :: n ++ a ++ w ++ ['/', '>']) (.elem n as [])

/-- Production [27], repeated: what may come before and after the root element. -/
inductive XMisc (N P : Str → Prop) : Str → Prop
  | nil : XMisc N P []
  | space (c : Char) {s : Str} : SChar c → XMisc N P s → XMisc N P (c :: s)
  | comment {d s : Str} : XComment d → XMisc N P s → XMisc N P ("<!--".toList ++ d ++ "-->".toList ++ s)
  | pi {d s : Str} : XPI N P d → XMisc N P s → XMisc N P ("<?".toList ++ d ++ "?>".toList ++ s)

/-- Production [25] Eq. -/
def XEq (e : Str) : Prop := ∃ w w', e = w ++ '=' :: w' ∧ OptS w ∧ OptS w'

/-- Production [26], with at least one digit after the point. -/
def XVersion (v : Str) : Prop := ∃ ds, v = '1' :: '.' :: ds ∧ ds ≠ [] ∧ ∀ c ∈ ds, DecDigit c

/-- An ASCII letter. -/
def XLetter (c : Char) : Prop := (65 ≤ c.toNat ∧ c.toNat ≤ 90) ∨ (97 ≤ c.toNat ∧ c.toNat ≤ 122)

/-- Production [81] EncName. -/
def XEncName (v : Str) : Prop :=
  ∃ c t, v = c :: t ∧ XLetter c ∧ ∀ d ∈ t, XLetter d ∨ DecDigit d ∨ d = '.' ∨ d = '_' ∨ d = '-'

/-- White space, a word, `=` and a quoted value: productions [24], [32] and [80]. -/
def XPseudo (word : Str) (V : Str → Prop) (s : Str) : Prop :=
  ∃ w e q v, s = w ++ word ++ e ++ q :: v ++ [q] ∧ SomeS w ∧ XEq e ∧ Quote q ∧ V v

/-- Production [23] XMLDecl. -/
def XDecl (s : Str) : Prop :=
  ∃ v enc sd w, s = "<?xml".toList ++ v ++ enc ++ sd ++ w ++ "?>".toList ∧
    XPseudo "version".toList XVersion v ∧
    (enc = [] ∨ XPseudo "encoding".toList XEncName enc) ∧
    (sd = [] ∨ XPseudo "standalone".toList (fun v => v = "yes".toList ∨ v = "no".toList) sd) ∧ OptS w

/-- Productions [1] and [22] without a document type declaration: a document and its root element.  `B` tests a
document that has no XML declaration. -/
def XDocument (N P B : Str → Prop) (s : Str) (root : Node) : Prop :=
  ∃ d m e m', s = d ++ (m ++ e ++ m') ∧ (d = [] ∧ B s ∨ XDecl d) ∧ XMisc N P m ∧ XElement N P e root ∧ XMisc N P m'

/-- A source is a well-formed document, perhaps after a byte order mark, once its line ends are normalised. -/
def XSource (N P B : Str → Prop) (src : Str) (root : Node) : Prop :=
  ∃ s, (src = s ∨ src = '\uFEFF' :: s) ∧ XDocument N P B (lineEnds s) root

/-- The source is a well-formed XML document whose root element is reported as given. -/
def XWellFormed (src : Str) (root : Node) : Prop := XSource XmlName PIText (fun _ => True) src root

/-- A name of the basic multilingual plane. -/
def BmpName (n : Str) : Prop := XmlName n ∧ ∀ c ∈ n, c.toNat < 0x10000

/-- The text of a processing instruction without two question marks in a row, counting that of its end. -/
def PlainPI (d : Str) : Prop := PIText d ∧ ¬ Occurs ['?', '?'] (d ++ ['?'])

/-- A text that does not begin as an XML declaration. -/
def PlainStart (s : Str) : Prop := ¬ "<?xml".toList <+: s

/-- A well-formed document whose names are of the basic multilingual plane, whose processing instructions are
plain and which, if it has no XML declaration, does not begin as one. -/
def PlainDocument (src : Str) (root : Node) : Prop := XSource BmpName PlainPI PlainStart src root

/-! ## Trees -/

mutual
/-- The same characters and elements in the same order; the order of attributes does not matter. -/
inductive Same : Node → Node → Prop
  | chr (c : Char) : Same (.chr c) (.chr c)
  | elem {n : Str} {as as' : List (Str × Str)} {ks ks' : List Node} : as.Perm as' → SameAll ks ks' →
      Same (.elem n as ks) (.elem n as' ks')
/-- `Same`, one by one. -/
inductive SameAll : List Node → List Node → Prop
  | nil : SameAll [] []
  | cons {a b : Node} {s t : List Node} : Same a b → SameAll s t → SameAll (a :: s) (b :: t)
end

mutual
/-- Inside the content of an element: every run of white space is now one space, the rest is as it was. -/
inductive Spaced : List Node → List Node → Prop
  | nil : Spaced [] []
  | chr (c : Char) {s t : List Node} : ¬ SChar c → Spaced s t → Spaced (.chr c :: s) (.chr c :: t)
  | run {w : Str} {s t : List Node} : SomeS w → Spaced s t → Spaced (w.map .chr ++ s) (.chr ' ' :: t)
  | elem {n : Str} {as : List (Str × Str)} {ks ks' s t : List Node} : Tidied ks ks' → Spaced s t →
      Spaced (.elem n as ks :: s) (.elem n as ks' :: t)
/-- The content of an element: white space at its start and its end may be dropped or not, white space inside it is
kept as a space, and the rest is as it was. -/
inductive Tidied : List Node → List Node → Prop
  | mk {w w' : Str} {s t : List Node} : OptS w → OptS w' → Spaced s t →
      Tidied (w.map .chr ++ s ++ w'.map .chr) t
end

end Verif.Spec
