import Verif.Model.ODataEval

/-!
# What the operators and methods of OData expressions mean

A specification of the values of expressions that does not refer to how they are evaluated.
-/

namespace Verif.OData.Eval

open Verif

/-- The numeric types from the smallest to the largest. -/
def rank : Ty → Option Nat
  | .byte => some 0
  | .int16 => some 1
  | .int32 => some 2
  | .int64 => some 3
  | .decimal => some 4
  | .single => some 5
  | .double => some 6
  | _ => none

/-- The type two values have in common: null has every type, and of two numeric types it is the larger one. -/
inductive Common : Option Ty → Option Ty → Option Ty → Prop
  | null (t) : Common none t t
  | nullRight (t) : Common t none t
  | same (t) : Common t t t
  | left {a b : Ty} {m n : Nat} : rank a = some m → rank b = some n → n ≤ m → Common (some a) (some b) (some a)
  | right {a b : Ty} {m n : Nat} : rank a = some m → rank b = some n → m ≤ n → Common (some a) (some b) (some b)

/-- The exact value of a number that is no infinite float and not `nan`. -/
def SVal.number : SVal → Option Rat
  | .byte n | .sbyte n | .int16 n | .int32 n | .int64 n => some n
  | .decimal q => some q
  | .double (.fin q) | .single (.fin q) => some q
  | _ => none

/-- The values of an integer type. -/
def range : Ty → Int → Prop
  | .byte, n => 0 ≤ n ∧ n < 2 ^ 8
  | .sbyte, n => -2 ^ 7 ≤ n ∧ n < 2 ^ 7
  | .int16, n => -2 ^ 15 ≤ n ∧ n < 2 ^ 15
  | .int32, n => -2 ^ 31 ≤ n ∧ n < 2 ^ 31
  | .int64, n => -2 ^ 63 ≤ n ∧ n < 2 ^ 63
  | _, _ => True

/-- A value that fits its type; for Decimals a bound above that of 29 digits. -/
def SVal.Fits (v : SVal) : Prop :=
  match v with
  | .byte n => range .byte n
  | .sbyte n => range .sbyte n
  | .int16 n => range .int16 n
  | .int32 n => range .int32 n
  | .int64 n => range .int64 n
  | .decimal q => -2 ^ 100 ≤ q ∧ q ≤ 2 ^ 100
  | .single (.fin q) => -(2 - 1 / 2 ^ 23) * 2 ^ 127 ≤ q ∧ q ≤ (2 - 1 / 2 ^ 23) * 2 ^ 127
  | _ => True

/-- The same for values of expressions. -/
def Value.Fits : Value → Prop
  | .simple v => v.Fits
  | _ => True

/-- The value of an integer type. -/
def ofInt : Ty → Int → SVal
  | .int64, n => .int64 n
  | _, n => .int32 n

/-- What is known about the arithmetic of Python: Decimals of up to 28 digits are exact, others right in the first 27;
`dbl` rounds to the nearest of the numbers of 53 binary digits, those halfway between two to the even one. -/
structure Faithful (E : Env) : Prop where
  rnd_short : ∀ (m : Int) (k : Nat), m.natAbs < 10 ^ 28 → E.rnd (m / 10 ^ k) = m / 10 ^ k
  rnd_bound : ∀ q : Rat, q ≤ 10 ^ 29 → E.rnd q ≤ 10 ^ 29
  rnd_close : ∀ q : Rat, (E.rnd q - q).abs * 10 ^ 27 ≤ q.abs
  dbl_int : ∀ n : Int, n.natAbs ≤ 2 ^ 53 → E.dbl n = .fin n
  dbl_bound : ∀ q : Rat, -2 ^ 100 ≤ q → q ≤ 2 ^ 100 → ∃ f, E.dbl q = .fin f ∧ -2 ^ 100 ≤ f ∧ f ≤ 2 ^ 100
  dbl_near : ∀ (q f : Rat) (n : Int), E.dbl q = .fin f → n.natAbs ≤ 2 ^ 53 → (f - q).abs ≤ (n - q).abs
  dbl_close : ∀ q f : Rat, E.dbl q = .fin f → 1 / 2 ^ 1000 ≤ q.abs → (f - q).abs * 2 ^ 53 ≤ q.abs
  dbl_even : ∀ k : Int, 2 ^ 52 ≤ k → k < 2 ^ 53 → E.dbl ((2 * k + 1 : Int) : Rat) = .fin ((2 * (k + k % 2) : Int) : Rat)

/-- The nearest integer, and of two the one away from zero. -/
def NearestAway (q : Rat) (n : Int) : Prop :=
  (n - q).abs ≤ 1 / 2 ∧ ((n - q).abs = 1 / 2 → q.abs ≤ (n : Rat).abs)

/-- The nearest integer, and of two the even one. -/
def NearestEven (q : Rat) (n : Int) : Prop :=
  (n - q).abs ≤ 1 / 2 ∧ ((n - q).abs = 1 / 2 → n % 2 = 0)

/-- The order of a dictionary: one list is the beginning of the other, or they differ and the first difference decides. -/
def Before {α : Type} (less : α → α → Prop) (a b : List α) : Prop :=
  (∃ c t, b = a ++ c :: t) ∨ ∃ p c s d t, a = p ++ c :: s ∧ b = p ++ d :: t ∧ less c d

/-- Pieces of a string with something between them. -/
def glue (sep : Str) : List Str → Str
  | [] => []
  | [p] => p
  | p :: rest => p ++ sep ++ glue sep rest

mutual
/-- The names of the properties an expression looks up in its own context: not those right of a `/`. -/
def names : Expr → List Str
  | .prop n => [n]
  | .unary _ args => namesList args
  | .binary .member (x :: _) => names x
  | .binary _ args => namesList args
  | .call _ args => namesList args
  | _ => []

/-- The names of several expressions. -/
def namesList : List Expr → List Str
  | [] => []
  | x :: rest => names x ++ namesList rest
end

mutual
/-- An expression with a `cast` or `isof` of its context itself. -/
def usesContext : Expr → Bool
  | .unary _ args => usesContextList args
  | .binary .member (x :: _) => usesContext x
  | .binary .cast [_] | .binary .isof [_] => true
  | .binary _ args => usesContextList args
  | .call _ args => usesContextList args
  | _ => false

/-- The same for several expressions. -/
def usesContextList : List Expr → Bool
  | [] => false
  | x :: rest => usesContext x || usesContextList rest
end

mutual
/-- An expression as the parser makes them: operators with all their operands, at the places where they belong; the type
name of a `cast` or `isof` is a string.  There is no `/`, and no `cast` or `isof` of the context itself. -/
def Complete : Expr → Prop
  | .absent => False
  | .lit _ => True
  | .prop _ => True
  | .unary op args => (op = .negate ∨ op = .boolNot) ∧ args.length = 1 ∧ CompleteList args
  | .binary op args => op ≠ .member ∧ op ≠ .paren ∧ op ≠ .methodCall ∧ op ≠ .negate ∧ op ≠ .boolNot ∧ args.length = 2 ∧
      CompleteList args ∧ (op = .cast ∨ op = .isof → ∃ x s, args = [x, .lit (.string s)])
  | .call _ args => CompleteList args

/-- The same for several expressions. -/
def CompleteList : List Expr → Prop
  | [] => True
  | x :: rest => Complete x ∧ CompleteList rest
end

mutual
/-- The literals of an expression fit their types, as the parser makes sure. -/
def LitFits (E : Env) : Expr → Prop
  | .lit v => (ofLit E v).Fits
  | .unary _ args | .binary _ args | .call _ args => LitFitsList E args
  | _ => True

/-- The same for several expressions. -/
def LitFitsList (E : Env) : List Expr → Prop
  | [] => True
  | x :: rest => LitFits E x ∧ LitFitsList E rest
end

end Verif.OData.Eval
