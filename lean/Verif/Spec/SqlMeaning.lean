import Verif.Spec.Sql
import Verif.Model.ODataEval

/-!
# Which rows a condition selects

The logic of SQL has three values: a comparison with `NULL` is unknown, and a row is selected if the condition is true.
-/

namespace Verif.Spec.Sql

open Verif Verif.OData Verif.OData.Sql

/-- What is stored in a column, as far as it is needed here. -/
inductive Cell where
  | null
  | int (n : Int)
  | text (s : Str)
deriving DecidableEq

/-- The order of texts by characters. -/
inductive TextLt : Str → Str → Prop where
  | nil (c s) : TextLt [] (c :: s)
  | head {c d s t} : c.toNat < d.toNat → TextLt (c :: s) (d :: t)
  | tail {c s t} : TextLt s t → TextLt (c :: s) (c :: t)

/-- One value is smaller than another of the same type. -/
inductive CellLt : Cell → Cell → Prop where
  | int {m n} : m < n → CellLt (.int m) (.int n)
  | text {s t} : TextLt s t → CellLt (.text s) (.text t)

/-- Values that can be compared. -/
inductive Comparable : Cell → Cell → Prop where
  | int (m n) : Comparable (.int m) (.int n)
  | text (s t) : Comparable (.text s) (.text t)

/-- What a comparison says of two values. -/
def Compares (o : Op) (x y : Cell) : Prop :=
  match o with
  | .eq => x = y
  | .ne => x ≠ y
  | .lt => CellLt x y
  | .gt => CellLt y x
  | .le => CellLt x y ∨ x = y
  | .ge => CellLt y x ∨ x = y
  | _ => False

/-- `LIKE` of the SQL standard: `%` stands for any text, `_` for any character.  (SQLite takes the letters of ASCII as equal to
their capitals unless told otherwise.) -/
inductive Like : Str → Str → Prop where
  | nil : Like [] []
  | any {s p} (r) : Like s p → Like (r ++ s) ('%' :: p)
  | one {s p} (c) : Like s p → Like (c :: s) ('_' :: p)
  | char {c s p} : c ≠ '%' → c ≠ '_' → Like s p → Like (c :: s) (c :: p)

/-- The parameters that are values of a cell. -/
inductive ParamCell : Param → Cell → Prop where
  | null : ParamCell .none .null
  | int (n) : ParamCell (.int n) (.int n)
  | text (s) : ParamCell (.text s) (.text s)

/-- `POSITION(p IN s)`: where `p` first occurs in `s`, counted from one, or zero if it does not occur. -/
inductive Position (p s : Str) : Int → Prop where
  | absent : (∀ a b, s ≠ a ++ p ++ b) → Position p s 0
  | first {a b} : s = a ++ p ++ b → (∀ a' b', s = a' ++ p ++ b' → a.length ≤ a'.length) → Position p s (a.length + 1)

/-- The value of an expression in a row. -/
inductive Val (row : Str → Cell) : Tree → Cell → Prop where
  | param {p x} : ParamCell p x → Val row (.param p) x
  | column (q) : Val row (.column q) (row q)
  | percent : Val row .percent (.text ['%'])
  | concat {a b s t} : Val row a (.text s) → Val row b (.text t) → Val row (.bin .concat a b) (.text (s ++ t))
  | position {a b p s n} : Val row a (.text p) → Val row b (.text s) → Position p s n →
      Val row (.call2 "POSITION(".toList " IN ".toList ")".toList a b) (.int n)

/-- A truth value, or unknown. -/
inductive Truth where
  | yes | no | unknown
deriving DecidableEq

/-- `AND`. -/
def Truth.and : Truth → Truth → Truth
  | .no, _ | _, .no => .no
  | .yes, .yes => .yes
  | _, _ => .unknown

/-- `OR`. -/
def Truth.or : Truth → Truth → Truth
  | .yes, _ | _, .yes => .yes
  | .no, .no => .no
  | _, _ => .unknown

/-- The comparisons. -/
def comparison : Op → Bool
  | .eq | .ne | .lt | .gt | .le | .ge => true
  | _ => false

/-- The truth of a condition in a row. -/
inductive Holds (row : Str → Cell) : Tree → Truth → Prop where
  | unknownLeft {o a b} : comparison o = true → Val row a .null → Holds row (.bin o a b) .unknown
  | unknownRight {o a b} : comparison o = true → Val row b .null → Holds row (.bin o a b) .unknown
  | yes {o a b x y} : comparison o = true → Val row a x → Val row b y → Comparable x y → Compares o x y →
      Holds row (.bin o a b) .yes
  | no {o a b x y} : comparison o = true → Val row a x → Val row b y → Comparable x y → ¬ Compares o x y →
      Holds row (.bin o a b) .no
  | like {a b s p} : Val row a (.text s) → Val row b (.text p) → Like s p → Holds row (.bin .like a b) .yes
  | unlike {a b s p} : Val row a (.text s) → Val row b (.text p) → ¬ Like s p → Holds row (.bin .like a b) .no
  | and {a b u v} : Holds row a u → Holds row b v → Holds row (.bin .and a b) (u.and v)
  | or {a b u v} : Holds row a u → Holds row b v → Holds row (.bin .or a b) (u.or v)

/-- The database selects the row for a clause. -/
def Selects (lv : Op → Nat) (row : Str → Cell) (q : List Piece) (ps : List Param) : Prop :=
  ∃ t, ReadsAs lv q ps t ∧ Holds row t .yes

/-- The database leaves the row out. -/
def LeavesOut (lv : Op → Nat) (row : Str → Cell) (q : List Piece) (ps : List Param) : Prop :=
  ∃ t, ReadsAs lv q ps t ∧ ∃ u, Holds row t u ∧ u ≠ .yes

/-! ## Entities and their rows -/

/-- What is stored for a value. -/
inductive Stored : Eval.SVal → Cell → Prop where
  | null (ty) : Stored (.null ty) .null
  | int32 (n) : Stored (.int32 n) (.int n)
  | int64 (n) : Stored (.int64 n) (.int n)
  | string (s) : Stored (.string s) (.text s)

/-- The row of an entity: every simple property has its column. -/
def RowOf (C : Coll) (W : Eval.World) (id : Nat) (row : Str → Cell) : Prop :=
  (∀ n, Eval.lookup n (W id).nav = none) ∧
  ∀ n q, C.mangled [n] = some q → ∃ v, Eval.lookup n (W id).data = some (.simple v) ∧ Stored v (row (C.column q))

/-- The filter is true of the entity, as the other stores decide it (`Evaluate`). -/
def TrueOf (E : Eval.Env) (W : Eval.World) (id : Nat) (e : Expr) : Prop :=
  Eval.eval E W (some (.entity id)) e = .ok (.simple (.bool true))

/-- The filter is false of the entity. -/
def FalseOf (E : Eval.Env) (W : Eval.World) (id : Nat) (e : Expr) : Prop :=
  Eval.eval E W (some (.entity id)) e = .ok (.simple (.bool false))

/-- Operands of simple filters: integers, strings and properties. -/
inductive Plain : Expr → Prop where
  | int32 (n) : Plain (.lit (.int32 n))
  | int64 (n) : Plain (.lit (.int64 n))
  | string (s) : Plain (.lit (.string s))
  | prop (n) : Plain (.prop n)

/-- The comparisons of OData. -/
def comparing : List Oper := [.eq, .ne, .lt, .gt, .le, .ge]

/-- Texts without the two characters that have a meaning for `LIKE`. -/
def Mild (s : Str) : Prop := ∀ c ∈ s, c ≠ '%' ∧ c ≠ '_'

/-- Simple filters: comparisons of plain operands, and tests for a given text without `%` and `_`, joined by `and` and
`or`. -/
inductive Simple : Expr → Prop where
  | starts {a s} : Plain a → Mild s → Simple (.call .startswith [a, .lit (.string s)])
  | ends {a s} : Plain a → Mild s → Simple (.call .endswith [a, .lit (.string s)])
  | within {a s} : Plain a → Mild s → Simple (.call .substringof [.lit (.string s), a])
  | cmp {op a b} : op ∈ comparing → Plain a → Plain b → Simple (.binary op [a, b])
  | and {a b} : Simple a → Simple b → Simple (.binary .boolAnd [a, b])
  | or {a b} : Simple a → Simple b → Simple (.binary .boolOr [a, b])

/-- The properties a simple filter speaks of are not null. -/
inductive NoNulls (W : Eval.World) (id : Nat) : Expr → Prop where
  | lit (v) : NoNulls W id (.lit v)
  | prop {n v} : Eval.lookup n (W id).data = some (.simple v) → v.isNull = false → NoNulls W id (.prop n)
  | binary {op a b} : NoNulls W id a → NoNulls W id b → NoNulls W id (.binary op [a, b])
  | call {m a b} : NoNulls W id a → NoNulls W id b → NoNulls W id (.call m [a, b])

end Verif.Spec.Sql
