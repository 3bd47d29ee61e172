import Verif.Model.Py

/-! # Specification of names, identifiers and warnings -/

namespace Verif.Spec

/-- Production [4] NameStartChar of XML 1.0 (fifth edition). -/
def XmlNameStart (c : Char) : Prop :=
  let n := c.toNat
  c = ':' ∨ (0x41 ≤ n ∧ n ≤ 0x5a) ∨ c = '_' ∨ (0x61 ≤ n ∧ n ≤ 0x7a) ∨ (0xc0 ≤ n ∧ n ≤ 0xd6) ∨ (0xd8 ≤ n ∧ n ≤ 0xf6) ∨
  (0xf8 ≤ n ∧ n ≤ 0x2ff) ∨ (0x370 ≤ n ∧ n ≤ 0x37d) ∨ (0x37f ≤ n ∧ n ≤ 0x1fff) ∨ (0x200c ≤ n ∧ n ≤ 0x200d) ∨
  (0x2070 ≤ n ∧ n ≤ 0x218f) ∨ (0x2c00 ≤ n ∧ n ≤ 0x2fef) ∨ (0x3001 ≤ n ∧ n ≤ 0xd7ff) ∨ (0xf900 ≤ n ∧ n ≤ 0xfdcf) ∨
  (0xfdf0 ≤ n ∧ n ≤ 0xfffd) ∨ (0x10000 ≤ n ∧ n ≤ 0xeffff)

/-- Production [4a] NameChar of XML 1.0 (fifth edition). -/
def XmlNameChar (c : Char) : Prop :=
  let n := c.toNat
  XmlNameStart c ∨ c = '-' ∨ c = '.' ∨ (0x30 ≤ n ∧ n ≤ 0x39) ∨ n = 0xb7 ∨ (0x300 ≤ n ∧ n ≤ 0x36f) ∨
  (0x203f ≤ n ∧ n ≤ 0x2040)

/-- Production NCName of Namespaces in XML: a name without colons. -/
def IsNCName (s : Str) : Prop :=
  ∃ c t, s = c :: t ∧ XmlNameStart c ∧ (∀ d ∈ t, XmlNameChar d) ∧ ∀ d ∈ s, d ≠ ':'

/-- The values of `view` in the target format. -/
def targetViews : List Str :=
  ["author", "candidate", "proctor", "scorer", "testConstructor", "tutor"].map String.toList

/-- The distinct entries of a list in order of first occurrence. -/
def firstOccurrences {α} [DecidableEq α] : List α → List α
  | [] => []
  | a :: t => a :: (firstOccurrences t).filter (· ≠ a)

end Verif.Spec
