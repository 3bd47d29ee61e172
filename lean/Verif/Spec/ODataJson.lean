import Verif.Model.ODataJson
import Verif.Spec.Calendar

/-!
# What properties may hold, and what JSON must preserve
-/

namespace Verif.OData.Json
open Verif.Cal Verif.Spec

/-- A point in time on a day of the calendar, without leap seconds. -/
def Moment.Proper (p : Moment) : Prop :=
  ValidDate p.date ∧ 0 ≤ p.hour ∧ p.hour ≤ 23 ∧ 0 ≤ p.minute ∧ p.minute ≤ 59 ∧ 0 ≤ p.second ∧ p.second ≤ 59 ∧
    0 ≤ p.milli ∧ p.milli ≤ 999

/-- The values of a type. -/
inductive HasType {V : Type} : Ty → Val V → Prop
  | binary (b) : HasType .binary (.binary b)
  | boolean (b) : HasType .boolean (.boolean b)
  | byte (n) : 0 ≤ n → n ≤ 255 → HasType (.int .byte) (.int n)
  | sbyte (n) : -128 ≤ n → n ≤ 127 → HasType (.int .sbyte) (.int n)
  | int16 (n) : -32768 ≤ n → n ≤ 32767 → HasType (.int .int16) (.int n)
  | int32 (n) : -2147483648 ≤ n → n ≤ 2147483647 → HasType (.int .int32) (.int n)
  | dateTime (p) : p.Proper → HasType .dateTime (.dateTime p)
  | lit (t v) : HasType (.lit t) (.lit v)
  | string (s) : HasType .string (.string s)

/-- Base64 and the literals are read as they were written. -/
structure Lib.Faithful {V : Type} (L : Lib V) : Prop where
  binary : ∀ b, L.unb64 (L.b64 b) = .ok b
  literal : ∀ t v, L.read t (L.write t v) = .ok v

/-- A point in time that JSON preserves: not in the last second of a minute before 1970 with a fraction. -/
def Moment.Kept (p : Moment) : Prop := p.Proper ∧ (719163 ≤ getAbsoluteDay p.date ∨ p.second ≠ 59 ∨ p.milli = 0)

/-- Values that JSON preserves. -/
def Keeps {V : Type} (ty : Ty) (v : Val V) : Prop := HasType ty v ∧ ∀ p, v = .dateTime p → p.Kept

mutual
/-- Properties of the same types. -/
inductive SameShape {V : Type} : Data V → Data V → Prop
  | simple {ty v w} : SameShape (.simple ty v) (.simple ty w)
  | complex {fs gs} : SameShapes fs gs → SameShape (.complex fs) (.complex gs)

/-- Lists of properties with the same names and types. -/
inductive SameShapes {V : Type} : List (Str × Data V) → List (Str × Data V) → Prop
  | nil : SameShapes [] []
  | cons {k d e fs gs} : SameShape d e → SameShapes fs gs → SameShapes ((k, d) :: fs) ((k, e) :: gs)
end

mutual
/-- All values are ones that JSON preserves, and the names of properties are different. -/
inductive Sound {V : Type} : Data V → Prop
  | null {ty} : Sound (.simple ty none)
  | value {ty v} : Keeps ty v → Sound (.simple ty (some v))
  | complex {fs} : Sounds fs → Sound (.complex fs)

inductive Sounds {V : Type} : List (Str × Data V) → Prop
  | nil : Sounds []
  | cons {k d fs} : Sound d → (∀ f ∈ fs, f.1 ≠ k) → Sounds fs → Sounds ((k, d) :: fs)
end

end Verif.OData.Json
