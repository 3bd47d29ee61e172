import Verif.Spec.OData

/-!
# The values a literal of each type can have

And the literals that occur in an expression.
-/

namespace Verif.Spec.OData

open Verif Verif.OData

/-- The digits of a fraction of a second. -/
def Fraction (f : Str) : Prop := (∀ c ∈ f, Py.isDigit c = true) ∧ f.length ≤ 7

/-- A finite number that is in the range of a float type. -/
def FloatBelow (x : Flt) (bound : Nat) : Prop := ∀ neg m e, x = .fin neg m e → Below m e bound

/-- The values of each type: integers of 32 and of 64 bits, Decimals with 29 digits before and after the point, floats up to
the largest of their type, bytes, numbers of 128 bits, dates of the calendar and times of the day. -/
def InRange (T : Tables) : Lit → Prop
  | .null => True
  | .bool _ => True
  | .int32 n => -2147483648 ≤ n ∧ n ≤ 2147483647
  | .int64 n => -9223372036854775808 ≤ n ∧ n ≤ 9223372036854775807
  | .decimal _ c scale => scale ≤ 29 ∧ c < 10 ^ (29 + scale)
  | .double x => FloatBelow x (2 ^ 1024 - 2 ^ 970)
  | .single x => FloatBelow x ((2 ^ 24 - 1) * 2 ^ 104)
  | .string _ => True
  | .binary b => ∀ n ∈ b, n < 256
  | .guid n => n < 2 ^ 128
  | .dateTime d h m s f =>
    (∃ y mo da : Nat, d = { century := (y / 100 : Nat), year := (y % 100 : Nat), month := (mo : Nat), day := (da : Nat) } ∧
      1 ≤ y ∧ y ≤ 9999 ∧ 1 ≤ mo ∧ mo ≤ 12 ∧ 1 ≤ da ∧ da ≤ daysIn y mo) ∧ TimeOfDay h m s f ∧ Fraction f
  | .time h m s f => TimeOfDay h m s f ∧ Fraction f
  | .offset t => '\'' ∉ t ∧ T.offset t = true

mutual
/-- The literals of an expression. -/
def literals : Expr → List Lit
  | .lit v => [v]
  | .unary _ args => literalsOf args
  | .binary _ args => literalsOf args
  | .call _ args => literalsOf args
  | _ => []

/-- The literals of several expressions. -/
def literalsOf : List Expr → List Lit
  | [] => []
  | x :: rest => literals x ++ literalsOf rest
end

end Verif.Spec.OData
