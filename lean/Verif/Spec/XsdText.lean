import Verif.Model.Py

/-!
# Numbers in XML schema notation

Nothing here refers to the modelled code.
-/

namespace Verif.Spec

open Verif

/-- The digits 0 to 9. -/
def IsDigit (c : Char) : Prop := '0' ≤ c ∧ c ≤ '9'

/-- The number a digit stands for. -/
def digitValue (c : Char) : Nat := c.toNat - '0'.toNat

/-- The number a string of digits stands for. -/
def digitsValue : Str → Nat
  | [] => 0
  | c :: cs => digitValue c * 10 ^ cs.length + digitsValue cs

/-- Digits standing for a natural number. -/
inductive NaturalText : Str → Nat → Prop where
  | mk {s} : s ≠ [] → (∀ c ∈ s, IsDigit c) → NaturalText s (digitsValue s)

/-- An `xs:integer`: digits, with or without a sign. -/
inductive IntegerText : Str → Int → Prop where
  | plain {s n} : NaturalText s n → IntegerText s n
  | plus {s n} : NaturalText s n → IntegerText ('+' :: s) n
  | minus {s n} : NaturalText s n → IntegerText ('-' :: s) (-n)

/-- Digits with at most one decimal point before, among or after them. -/
inductive UnsignedText : Str → Rat → Prop where
  | whole {s n} : NaturalText s n → UnsignedText s n
  | point {s t} : (∀ c ∈ s ++ t, IsDigit c) → s ++ t ≠ [] →
      UnsignedText (s ++ '.' :: t) (digitsValue s + digitsValue t / ((10 ^ t.length : Nat) : Rat))

/-- An `xs:decimal`. -/
inductive DecimalText : Str → Rat → Prop where
  | plain {s q} : UnsignedText s q → DecimalText s q
  | plus {s q} : UnsignedText s q → DecimalText ('+' :: s) q
  | minus {s q} : UnsignedText s q → DecimalText ('-' :: s) (-q)

/-- Ten to an integer power. -/
def tenTo (e : Int) : Rat := if 0 ≤ e then ((10 ^ e.toNat : Nat) : Rat) else 1 / ((10 ^ (-e).toNat : Nat) : Rat)

/-- An `xs:double`, special values left out. -/
inductive DoubleText : Str → Rat → Prop where
  | decimal {s q} : DecimalText s q → DoubleText s q
  | exponent {s q t e c} : DecimalText s q → IntegerText t e → c = 'e' ∨ c = 'E' →
      DoubleText (s ++ c :: t) (q * tenTo e)

end Verif.Spec
