import Verif.Model.SqlExpr

/-!
# What a filter may put into the text of a condition
-/

namespace Verif.Spec.Sql

open Verif Verif.OData Verif.OData.Sql

mutual
/-- A filter with every literal replaced by `null`. -/
def blank : Expr → Expr
  | .absent => .absent
  | .lit _ => .lit .null
  | .prop n => .prop n
  | .unary op args => .unary op (blankAll args)
  | .binary op args => .binary op (blankAll args)
  | .call m args => .call m (blankAll args)

/-- The same for operands. -/
def blankAll : List Expr → List Expr
  | [] => []
  | e :: rest => blank e :: blankAll rest
end

/-- Filters that differ in their literals only. -/
def SameButLiterals (e e' : Expr) : Prop := blank e = blank e'

/-- A literal occurs in a filter. -/
inductive Occurs (v : Lit) : Expr → Prop where
  | lit : Occurs v (.lit v)
  | unary {op args e} : e ∈ args → Occurs v e → Occurs v (.unary op args)
  | binary {op args e} : e ∈ args → Occurs v e → Occurs v (.binary op args)
  | call {m args e} : e ∈ args → Occurs v e → Occurs v (.call m args)

/-- The number of question marks the text has for parameters. -/
def holes (q : List Piece) : Nat := q.countP (· = .hole)

/-- A path leads through declared properties of complex types to a declared simple one; of several declarations with one
name the first counts. -/
inductive Declared : List (Str × Kind) → List Str → Prop where
  | simple {pre post n} : (∀ d ∈ pre, d.1 ≠ n) → Declared (pre ++ (n, .simple) :: post) [n]
  | complex {pre post n fields rest} : (∀ d ∈ pre, d.1 ≠ n) → Declared fields rest →
      Declared (pre ++ (n, .complex fields) :: post) (n :: rest)

/-- The columns of a collection: those of its declared simple properties. -/
def IsColumn (C : Coll) (s : Str) : Prop :=
  ∃ names col, Declared C.props names ∧ C.mangled names = some col ∧ s = C.column col

/-- `IsValue v p`: the parameter is the value of the literal.  The fraction of a second is rounded to microseconds. -/
inductive IsValue : Lit → Param → Prop where
  | null : IsValue .null .none
  | bool (b) : IsValue (.bool b) (.bool b)
  | int32 (n) : IsValue (.int32 n) (.int n)
  | int64 (n) : IsValue (.int64 n) (.int n)
  | decimal (neg c scale) : IsValue (.decimal neg c scale) (.decimal neg c scale)
  | double (x) : IsValue (.double x) (.float x)
  | single (x) : IsValue (.single x) (.float x)
  | string (s) : IsValue (.string s) (.text s)
  | binary (b) : IsValue (.binary b) (.bytes b)
  | guid (n) : IsValue (.guid n) (.uuid n)
  | time (h m s f) : IsValue (.time h m s f) (.time h m s f)
  | offset (t) : IsValue (.offset t) (.offset t)
  | dateTime {d : Cal.Date} {h m s f micro} : 0 < (d.century * 100 + d.year).toNat → h ≤ 23 → m ≤ 59 → s ≤ 59 →
      micro ≤ 999999 → 2 * micro * 10 ^ f.length ≤ 2 * (Py.digitsVal 10 f * 1000000) + 10 ^ f.length →
      2 * (Py.digitsVal 10 f * 1000000) < 2 * micro * 10 ^ f.length + 10 ^ f.length →
      IsValue (.dateTime d h m s f) (.timestamp (d.century * 100 + d.year).toNat d.month.toNat d.day.toNat h m s micro)

/-- How SQL writes the operators of OData. -/
def symbols : List (Oper × String) :=
  [(.mul, "*"), (.div, "/"), (.add, "+"), (.sub, "-"), (.lt, "<"), (.gt, ">"), (.le, "<="), (.ge, ">="), (.eq, "="),
    (.ne, "<>"), (.boolAnd, "AND"), (.boolOr, "OR")]

/-- How the functions of one operand are written in standard SQL, and in SQLite. -/
def functionTexts : List (Meth × (String × String) × (String × String)) :=
  [(.tolower, ("LOWER(", ")"), ("lower(", ")")), (.toupper, ("UPPER(", ")"), ("upper(", ")")), (.trim, ("TRIM(", ")"), ("TRIM(", ")")),
    (.length, ("CHAR_LENGTH(", ")"), ("length(", ")")),
    (.year, ("EXTRACT(YEAR FROM ", ")"), ("CAST(strftime('%Y',", ") AS INTEGER)")),
    (.month, ("EXTRACT(MONTH FROM ", ")"), ("CAST(strftime('%m',", ") AS INTEGER)")),
    (.day, ("EXTRACT(DAY FROM ", ")"), ("CAST(strftime('%d',", ") AS INTEGER)")),
    (.hour, ("EXTRACT(HOUR FROM ", ")"), ("CAST(strftime('%H',", ") AS INTEGER)")),
    (.minute, ("EXTRACT(MINUTE FROM ", ")"), ("CAST(strftime('%M',", ") AS INTEGER)")),
    (.second, ("EXTRACT(SECOND FROM ", ")"), ("CAST(strftime('%S',", ") AS INTEGER)"))]

/-- What the store cannot write: operators of one operand, `mod`, `cast`, `isof`, and the functions `substring`, `replace`,
`round`, `floor` and `ceiling`. -/
inductive Foreign : Expr → Prop where
  | unary (op args) : Foreign (.unary op args)
  | mod (args) : Foreign (.binary .mod args)
  | cast (args) : Foreign (.binary .cast args)
  | isof (args) : Foreign (.binary .isof args)
  | substring (a b more) : Foreign (.call .substring (a :: b :: more))
  | replace (args) : Foreign (.call .replace args)
  | round (args) : Foreign (.call .round args)
  | floor (args) : Foreign (.call .floor args)
  | ceiling (args) : Foreign (.call .ceiling args)
  | binary {op x a b} : x ∈ [a, b] → Foreign x → Foreign (.binary op [a, b])
  | call1 {m a} : Foreign a → Foreign (.call m [a])
  | call2 {m x a b} : m ∈ [Meth.startswith, .endswith, .substringof, .indexof, .concat] → x ∈ [a, b] → Foreign x →
      Foreign (.call m [a, b])

end Verif.Spec.Sql
