import Verif.Model.CharClass

/-! # Character classes as sets -/

namespace Verif.Spec

open Verif

/-- A way of building a character class through the public interface. -/
inductive ClassExpr where
  | empty
  | addChar (e : ClassExpr) (c : Nat)
  | addRange (e : ClassExpr) (a z : Nat)
  | addClass (e other : ClassExpr)
  | subtractChar (e : ClassExpr) (c : Nat)
  | subtractRange (e : ClassExpr) (a z : Nat)
  | subtractClass (e other : ClassExpr)
  | negate (e : ClassExpr)

/-- The set of code points it should denote. -/
def ClassExpr.members : ClassExpr → Nat → Prop
  | .empty, _ => False
  | .addChar e c, d => e.members d ∨ d = c
  | .addRange e a z, d => e.members d ∨ (a ≤ d ∧ d ≤ z) ∨ (z ≤ d ∧ d ≤ a)
  | .addClass e o, d => e.members d ∨ o.members d
  | .subtractChar e c, d => e.members d ∧ d ≠ c
  | .subtractRange e a z, d => e.members d ∧ ¬ ((a ≤ d ∧ d ≤ z) ∨ (z ≤ d ∧ d ≤ a))
  | .subtractClass e o, d => e.members d ∧ ¬ o.members d
  | .negate e, d => d ≤ 0x10FFFF ∧ ¬ e.members d

/-- The object obtained by calling the methods (every operand is built separately). -/
def ClassExpr.build : ClassExpr → List CC.Rg
  | .empty => []
  | .addChar e c => CC.addChar 0 e.build c
  | .addRange e a z => CC.addRange 0 e.build a z
  | .addClass e o => CC.addClass 0 e.build o.build
  | .subtractChar e c => CC.subtractChar 0 e.build c
  | .subtractRange e a z => CC.subtractRange 0 e.build a z
  | .subtractClass e o => CC.subtractClass 0 e.build o.build
  | .negate e => CC.negate 0 e.build

end Verif.Spec
