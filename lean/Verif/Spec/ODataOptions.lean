import Verif.Spec.OData
import Verif.Model.ODataOptions

/-! # What `$expand`, `$select` and `$orderby` say, independently of how they are read -/

namespace Verif.Spec.OData

open Verif Verif.OData

/-- The path leads through the nested dictionaries. -/
def Has : Forest → List Str → Prop
  | _, [] => True
  | .nil, _ :: _ => False
  | .cons m s r, n :: p => (m = n ∧ Has s p) ∨ Has r (n :: p)

/-- The names of the outermost dictionary. -/
def names : Forest → List Str
  | .nil => []
  | .cons n _ r => n :: names r

/-- No dictionary has a name twice: what every Python dictionary satisfies. -/
def Dictionary : Forest → Prop
  | .nil => True
  | .cons n s r => n ∉ names r ∧ Dictionary s ∧ Dictionary r

/-- A non-empty list of paths of names, as `A/B,C`. -/
def ExpandList (T : Tables) (t : Str) (ps : List (List Str)) : Prop :=
  ps ≠ [] ∧ (∀ p ∈ ps, p ≠ [] ∧ ∀ n ∈ p, Ident T n) ∧ t = Py.join ',' (ps.map (Py.join '/'))

/-- A path of `$select`: names, at the end also a star, and white space before each. -/
inductive SelectPath (T : Tables) : Str → List Str → Prop
  | star {w : Str} : Blank w → SelectPath T (w ++ ['*']) [['*']]
  | name {w n : Str} : Blank w → Ident T n → SelectPath T (w ++ n) [n]
  | more {w n u : Str} {p : List Str} : Blank w → Ident T n → SelectPath T u p → SelectPath T (w ++ (n ++ '/' :: u)) (n :: p)

/-- Paths of `$select` separated by commas, with white space. -/
inductive SelectList (T : Tables) : Str → List (List Str) → Prop
  | last {t w : Str} {p : List Str} : SelectPath T t p → Blank w → SelectList T (t ++ w) [p]
  | more {t w u : Str} {p : List Str} {ps : List (List Str)} : SelectPath T t p → Blank w → SelectList T u ps →
    SelectList T (t ++ (w ++ ',' :: u)) (p :: ps)

/-- The dictionary holds the paths and their beginnings, and nothing else. -/
def Lists (f : Forest) (ps : List (List Str)) : Prop := Dictionary f ∧ ∀ q, Has f q ↔ q = [] ∨ ∃ p ∈ ps, q <+: p

/-- The names of `$expand`. -/
def ExpandNames (T : Tables) : Forest → Prop
  | .nil => True
  | .cons n s r => Ident T n ∧ ExpandNames T s ∧ ExpandNames T r

/-- The names of `$select`: a star has nothing below it. -/
def SelectNames (T : Tables) : Forest → Prop
  | .nil => True
  | .cons n s r => (Ident T n ∧ SelectNames T s ∨ n = ['*'] ∧ s = .nil) ∧ SelectNames T r

/-- The names have no slash. -/
def Slashless : Forest → Prop
  | .nil => True
  | .cons n s r => '/' ∉ n ∧ Slashless s ∧ Slashless r

/-- A rule of `$orderby`: an expression, then `asc`, `desc` (in any case of letters) or nothing; `true` is ascending. -/
inductive OrderRule (T : Tables) : Str → Expr × Bool → Prop
  | plain {w t w' : Str} {e : Expr} : Denotes T 2 t e → Blank w → Blank w' → OrderRule T (w ++ (t ++ w')) (e, true)
  | asc {w t w' d w'' : Str} {e : Expr} : Denotes T 2 t e → Blank w → Blank w' → w' ≠ [] → Py.lower d = "asc".toList →
    Blank w'' → OrderRule T (w ++ (t ++ (w' ++ (d ++ w'')))) (e, true)
  | desc {w t w' d w'' : Str} {e : Expr} : Denotes T 2 t e → Blank w → Blank w' → w' ≠ [] → Py.lower d = "desc".toList →
    Blank w'' → OrderRule T (w ++ (t ++ (w' ++ (d ++ w'')))) (e, false)

/-- Rules separated by commas. -/
inductive OrderList (T : Tables) : Str → List (Expr × Bool) → Prop
  | last {t : Str} {r : Expr × Bool} : OrderRule T t r → OrderList T t [r]
  | more {t u : Str} {r : Expr × Bool} {rs : List (Expr × Bool)} : OrderRule T t r → OrderList T u rs →
    OrderList T (t ++ ',' :: u) (r :: rs)

end Verif.Spec.OData
