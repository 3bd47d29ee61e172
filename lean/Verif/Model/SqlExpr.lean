import Verif.Model.ODataExpr

/-!
# Filters as SQL

Models `SQLCollectionBase.SQLExpression` and the methods it calls, `SQLParams` and `PrepareSQLValue` of
`pyslet/pyslet/odata2/sqlds.py` (cited as *sqlds*), for the general classes and for SQLite.

The text of an expression is the list of the pieces the code appends; `Piece.text` gives the characters.  Parameters are
those of `QMarkParams`: the constructors of `NumericParams` and `NamedParams` raise `TypeError` (sqlds:95-96, 109-110).
-/

namespace Verif.OData.Sql

open Verif

/-- The exceptions of the conversion. -/
inductive Fail where
  /-- `core.EvaluationError` -/
  | evaluation
  /-- `NotImplementedError` -/
  | notImplemented
  /-- `IndexError` -/
  | index
  /-- `KeyError` -/
  | key
  /-- `TypeError` -/
  | type
  /-- `NameError` -/
  | name
  /-- `ValueError` -/
  | value
  /-- an operand which is `None`: not modelled -/
  | unmodelled
deriving DecidableEq, Repr

/-- The binary operators of SQL the code writes: the keys of `SQLOperatorPrecedence` without `,` and `NOT`
(sqlds:25-41), and `||`. -/
inductive Op where
  | or | and | eq | ne | lt | gt | le | ge | like | add | sub | mul | div | concat
deriving DecidableEq, Repr

/-- How they are written. -/
def Op.text : Op → Str
  | .or => ['O', 'R']
  | .and => ['A', 'N', 'D']
  | .eq => ['=']
  | .ne => ['<', '>']
  | .lt => ['<']
  | .gt => ['>']
  | .le => ['<', '=']
  | .ge => ['>', '=']
  | .like => ['L', 'I', 'K', 'E']
  | .add => ['+']
  | .sub => ['-']
  | .mul => ['*']
  | .div => ['/']
  | .concat => ['|', '|']

/-- `SQLOperatorPrecedence` (sqlds:25-41); `||` is converted as if it were `*` (sqlds:1039-1045). -/
def Op.prec : Op → Nat
  | .or => 1
  | .and => 2
  | .eq | .ne | .lt | .gt | .le | .ge | .like => 4
  | .add | .sub => 5
  | .mul | .div | .concat => 6

/-- The context of an expression: an operator, or `,` (nothing), whose precedence is 0. -/
def ctxPrec : Option Op → Nat
  | none => 0
  | some o => o.prec

/-- The pieces of the text. -/
inductive Piece where
  /-- a parameter -/
  | hole
  /-- the name of a column -/
  | name (s : Str)
  /-- an operator with a blank on each side -/
  | op (o : Op)
  | lp
  | rp
  /-- the name of a function and its bracket -/
  | opening (s : Str)
  /-- what stands between two arguments -/
  | mid (s : Str)
  /-- the end of a call -/
  | closing (s : Str)
  /-- the literal `'%'` -/
  | percent
deriving DecidableEq

/-- The characters of a piece. -/
def Piece.text : Piece → Str
  | .hole => ['?']
  | .name s => s
  | .op o => ' ' :: (o.text ++ [' '])
  | .lp => ['(']
  | .rp => [')']
  | .opening s => s
  | .mid s => s
  | .closing s => s
  | .percent => ['\'', '%', '\'']

/-- Values as they are handed to the database. -/
inductive Param where
  | none
  | bool (b : Bool)
  | int (n : Int)
  | decimal (neg : Bool) (c : Nat) (scale : Nat)
  | float (x : Flt)
  | text (s : Str)
  | bytes (b : List Nat)
  | uuid (n : Nat)
  | timestamp (year month day hour minute second micro : Nat)
  | time (hour minute second : Nat) (frac : Str)
  | offset (text : Str)
deriving DecidableEq, Repr

/-- `PrepareSQLValue` (sqlds:3223-3289, 3419-3448) of the value of a literal.  The forms of binary strings, decimals, times and
identifiers differ between the databases and are not distinguished; the calculation of microseconds (sqlds:3271, 3278) is
exact. -/
def prepare : Lit → Except Fail Param
  | .null => .ok .none
  | .bool b => .ok (.bool b)
  | .int32 n => .ok (.int n)
  | .int64 n => .ok (.int n)
  | .decimal neg c scale => .ok (.decimal neg c scale)
  | .double x => .ok (.float x)
  | .single x => .ok (.float x)
  | .string s => .ok (.text s)
  | .binary b => .ok (.bytes b)
  | .guid n => .ok (.uuid n)
  | .dateTime d h m s f =>
    let micro := (2 * (Py.digitsVal 10 f * 1000000) + 10 ^ f.length) / (2 * 10 ^ f.length)
    let year := (d.century * 100 + d.year).toNat
    if year = 0 ∨ h > 23 ∨ m > 59 ∨ s > 59 ∨ micro > 999999 then .error .value
    else .ok (.timestamp year d.month.toNat d.day.toNat h m s micro)
  | .time h m s f => .ok (.time h m s f)
  | .offset t => .ok (.offset t)

/-- What the entity type says of a name (csdl.py: `Property`, `NavigationProperty`). -/
inductive Kind where
  | simple
  | complex (fields : List (Str × Kind))
  | nav

/-- The collection: the properties of its type, the mangled and quoted names of its columns (sqlds:2635-2638, by the path
without the name of the entity set), the name of the table, `qualifyNames`, and whether the database is SQLite. -/
structure Coll where
  props : List (Str × Kind)
  mangled : List Str → Option Str
  table : Str
  qualify : Bool
  lite : Bool

/-- The declaration of a name. -/
def declared (name : Str) : List (Str × Kind) → Option Kind
  | [] => none
  | (n, k) :: rest => if n = name then some k else declared name rest

/-- The name of a column, qualified if asked for (sqlds:789-793, 854-858). -/
def Coll.column (C : Coll) (q : Str) : Str := if C.qualify then C.table ++ '.' :: q else q

/-- A text with its parameters. -/
abbrev Out := List Piece × List Param

/-- `SQLBracket` (sqlds:801-828). -/
def bracket (q : List Piece) (ctx : Option Op) (o : Op) : List Piece :=
  if ctxPrec ctx > o.prec then .lp :: (q ++ [.rp]) else q

/-- Two operands and the operator between them (sqlds:872-884 and the last lines of the other methods). -/
def join (o : Op) (a b : Out) (ctx : Option Op) : Out := (bracket (a.1 ++ .op o :: b.1) ctx o, a.2 ++ b.2)

/-- The literal `'%'` as an operand (sqlds:946-948, 780-781). -/
def percent : Out := ([.percent], [])

/-- `_CalculateMemberFieldName` (sqlds:860-866). -/
def memberNames : Expr → Except Fail (List Str)
  | .prop name => .ok [name]
  | .binary .member (a :: b :: _) => do
    let x ← memberNames a
    let y ← memberNames b
    .ok (x ++ y)
  | .binary .member _ => .error .index
  | _ => .error .evaluation

/-- The loop of `SQLExpressionMember` (sqlds:836-853) over the names, in a type, or in no type. -/
def memberWalk : Option (List (Str × Kind)) → List Str → Except Fail (Option (List (Str × Kind)))
  | ctx, [] => .ok ctx
  | none, _ :: _ => .error .evaluation
  | some fields, n :: rest =>
    match declared n fields with
    | none => .error .key
    | some .simple => memberWalk none rest
    | some (.complex f) => memberWalk (some f) rest
    | some .nav => .error .notImplemented

/-- `SQLExpressionMember` (sqlds:830-858). -/
def member (C : Coll) (e : Expr) : Except Fail Out := do
  let names ← memberNames e
  match ← memberWalk (some C.props) names with
  | some _ => .error .evaluation
  | none =>
    match C.mangled names with
    | some q => .ok ([.name (C.column q)], [])
    | none => .error .key

/-- A property (sqlds:784-797): a complex one raises `NameError` when the message is made (sqlds:795). -/
def property (C : Coll) (name : Str) : Except Fail Out :=
  match declared name C.props with
  | none => .error .evaluation
  | some .simple =>
    match C.mangled [name] with
    | some q => .ok ([.name (C.column q)], [])
    | none => .error .evaluation
  | some (.complex _) => .error .name
  | some .nav => .error .unmodelled

/-- The operators that are written between their operands (sqlds:886-940, 1111-1128). -/
def infixOp : Oper → Option Op
  | .mul => some .mul
  | .div => some .div
  | .add => some .add
  | .sub => some .sub
  | .lt => some .lt
  | .gt => some .gt
  | .le => some .le
  | .ge => some .ge
  | .eq => some .eq
  | .ne => some .ne
  | .boolAnd => some .and
  | .boolOr => some .or
  | _ => none

/-- The functions of one operand: their text before and after it (sqlds:987-997, 1047-1073; SQLite: 3488-3549). -/
def function (lite : Bool) : Meth → Option (Str × Str)
  | .tolower => some ((if lite then "lower(" else "LOWER(").toList, ")".toList)
  | .toupper => some ((if lite then "upper(" else "UPPER(").toList, ")".toList)
  | .trim => some ("TRIM(".toList, ")".toList)
  | .length => some ((if lite then "length(" else "CHAR_LENGTH(").toList, ")".toList)
  | .year => some (if lite then ("CAST(strftime('%Y',".toList, ") AS INTEGER)".toList) else ("EXTRACT(YEAR FROM ".toList, ")".toList))
  | .month =>
    some (if lite then ("CAST(strftime('%m',".toList, ") AS INTEGER)".toList) else ("EXTRACT(MONTH FROM ".toList, ")".toList))
  | .day => some (if lite then ("CAST(strftime('%d',".toList, ") AS INTEGER)".toList) else ("EXTRACT(DAY FROM ".toList, ")".toList))
  | .hour => some (if lite then ("CAST(strftime('%H',".toList, ") AS INTEGER)".toList) else ("EXTRACT(HOUR FROM ".toList, ")".toList))
  | .minute =>
    some (if lite then ("CAST(strftime('%M',".toList, ") AS INTEGER)".toList) else ("EXTRACT(MINUTE FROM ".toList, ")".toList))
  | .second =>
    some (if lite then ("CAST(strftime('%S',".toList, ") AS INTEGER)".toList) else ("EXTRACT(SECOND FROM ".toList, ")".toList))
  | _ => none

/-- A call with one operand. -/
def apply (f : Str × Str) (a : Out) : Out := (.opening f.1 :: (a.1 ++ [.closing f.2]), a.2)

/-- `SQLExpression` (sqlds:743-799) with the methods of the operators and functions. -/
def sql (C : Coll) : Expr → Option Op → Except Fail Out
  | .absent, _ => .error .unmodelled
  | .unary .., _ => .error .notImplemented
  | .lit v, _ => do
    let p ← prepare v
    .ok ([.hole], [p])
  | .prop name, _ => property C name
  | .binary .member args, _ => member C (.binary .member args)
  | .binary op args, ctx =>
    match infixOp op with
    | some o =>
      match args with
      | a :: b :: _ => do
        let x ← sql C a (some o)
        let y ← sql C b (some o)
        .ok (join o x y ctx)
      | _ => .error .index
    | none => if op = .cast ∨ op = .mod ∨ op = .isof then .error .notImplemented else .error .key
  -- sqlds:942-956
  | .call .endswith (a :: b :: _), ctx => do
    let x ← sql C a (some .like)
    let y ← sql C b (some .mul)
    .ok (join .like x (join .concat percent y (some .like)) ctx)
  -- sqlds:971-985
  | .call .startswith (a :: b :: _), ctx => do
    let x ← sql C a (some .like)
    let y ← sql C b (some .mul)
    .ok (join .like x (join .concat y percent (some .like)) ctx)
  -- sqlds:1011-1037
  | .call .substringof (a :: b :: _), ctx => do
    let x ← sql C b (some .like)
    let y ← sql C a (some .mul)
    .ok (join .like x (join .concat percent (join .concat y percent (some .mul)) (some .like)) ctx)
  -- sqlds:1039-1045
  | .call .concat (a :: b :: _), ctx => do
    let x ← sql C a (some .mul)
    let y ← sql C b (some .mul)
    .ok (join .concat x y ctx)
  -- sqlds:958-965
  | .call .indexof (a :: b :: _), _ => do
    let x ← sql C a none
    let y ← sql C b none
    .ok (.opening "POSITION(".toList :: (x.1 ++ .mid " IN ".toList :: (y.1 ++ [.closing ")".toList])), x.2 ++ y.2)
  -- sqlds:999-1009: the comparison of the list with 2 gives a Boolean, which has no length
  | .call .substring (a :: b :: _), _ => do
    let _ ← sql C a none
    let _ ← sql C b none
    .error .type
  | .call m args, _ =>
    if m = .replace ∨ m = .round ∨ m = .floor ∨ m = .ceiling then .error .notImplemented
    else match function C.lite m with
      | some f =>
        match args with
        | a :: _ => do
          let x ← sql C a none
          .ok (apply f x)
        | [] => .error .index
      | none => .error .index

/-- The condition a filter adds to `WHERE` (sqlds:585-587): in brackets, in the context of `AND`. -/
def filterClause (C : Coll) (e : Expr) : Except Fail Out := do
  let x ← sql C e (some .and)
  .ok (.lp :: (x.1 ++ [.rp]), x.2)

/-- The characters of a text. -/
def chars (q : List Piece) : Str := q.flatMap Piece.text

end Verif.OData.Sql
