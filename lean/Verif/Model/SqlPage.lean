import Verif.Model.SqlExpr
import Verif.Model.ODataLit

/-!
# Pages of a collection in a SQL database

Models `SetPage`, `NextSkipToken`, `pageGenerator` and `WhereSkiptokenClause` of `SQLCollectionBase`
(`pyslet/pyslet/odata2/sqlds.py`, cited as *sqlds*), what the server passes to them and what it puts into the link to the next
page (`pyslet/pyslet/odata2/server.py` cited as *server*, `pyslet/pyslet/odata2/core.py` cited as *core*).

A row is modelled by a number that identifies it and by the values of its order columns, as the database returns them.
-/

namespace Verif.OData.SqlPage

open Verif

/-- The exceptions. -/
inductive Fail where
  /-- `ValueError` -/
  | value
  /-- `TypeError` -/
  | type
  /-- `IndexError` -/
  | index
  /-- `core.InvalidSystemQueryOption` -/
  | invalidOption
  /-- any other exception of the reader of literals -/
  | reader
  /-- timestamps and times are not modelled -/
  | unmodelled
deriving DecidableEq, Repr

/-- What matters of the collection: the directions of the rules of `$orderby` (`true` for `desc`) and the number of key
properties (sqlds:652-668). -/
structure Coll where
  orderby : List Bool
  keys : Nat

/-- The directions of `orderNames` (sqlds:654-668): the keys come last and ascend. -/
def Coll.dirs (C : Coll) : List Bool := C.orderby ++ List.replicate C.keys false

/-- A row: its identity and the values of its order columns (sqlds:684-708, 457). -/
structure Row where
  id : Nat
  order : List Sql.Param
deriving DecidableEq, Repr

/-- The paging state of a collection (csdl.py:2417-2425, sqlds:368-398). -/
structure Page where
  top : Option Int
  skip : Option Int
  token : Option (List Lit)
  next : Option (List Lit)
deriving DecidableEq, Repr

/-! ## Tokens -/

/-- The loop of `SetPage` (sqlds:376-385): literals separated by commas. -/
def readToken (T : Tables) : Nat → Str → Except Fail (List Lit)
  | 0, _ => .error .reader
  | n + 1, s =>
    match uriLiteral T (wsp s) with
    | .error .valueError => .error .value
    | .error _ => .error .reader
    | .ok (none, _) => .error .value
    | .ok (some v, s) =>
      match wsp s with
      | ',' :: t => (readToken T n t).map (v :: ·)
      | [] => .ok [v]
      | _ => .error .invalidOption

/-- `SetPage` (sqlds:353-398).  With one value more than there are order columns the last one is added to `skip`
(sqlds:390-396): `None+=n` raises `TypeError`. -/
def setPage (T : Tables) (C : Coll) (top skip : Option Int) (token : Option Str) : Except Fail Page :=
  match token with
  | none => .ok { top := top, skip := skip, token := none, next := none }
  | some s =>
    match readToken T (s.length + 1) s with
    | .error e => .error e
    | .ok vs =>
      if vs.length = C.orderby.length + C.keys + 1 then
        match vs.getLast? with
        | some (.int32 n) =>
          match skip with
          | some k => .ok { top := top, skip := some (k + n), token := some vs.dropLast, next := none }
          | none => .error .type
        | _ => .error .invalidOption
      else if vs.length ≠ C.orderby.length + C.keys then .error .invalidOption
      else .ok { top := top, skip := skip, token := some vs, next := none }

/-- Texts joined by commas. -/
def commas : List Str → Str
  | [] => []
  | [s] => s
  | s :: t => s ++ ',' :: commas t

/-- `NextSkipToken` (sqlds:400-407): `fin` is the text of a finite float.  An empty list counts as none. -/
def nextSkipToken (fin : Bool → Nat → Int → Str) (S : Page) : Option Str :=
  match S.next with
  | some (v :: vs) => some (commas ((v :: vs).map (litText fin)))
  | _ => none

/-- `NewFromSQLValue` (sqlds:3309-3323, 3467-3478, csdl.py:779-805, 534-540): there is no type for `None`.  Integers are
Python's `int`, which becomes an Int64. -/
def newFromSQL : Sql.Param → Except Fail Lit
  | .none => .error .value
  | .bool b => .ok (.bool b)
  | .int n => if n < -2 ^ 63 ∨ n > 2 ^ 63 - 1 then .error .value else .ok (.int64 n)
  | .decimal neg c scale => .ok (.decimal neg c scale)
  | .float x => .ok (.double x)
  | .text s => .ok (.string s)
  | .bytes b => .ok (.binary b)
  | .uuid n => .ok (.guid n)
  | .timestamp .. | .time .. | .offset _ => .error .unmodelled

/-- The length of the texts and binary data of a token (sqlds:461-464). -/
def tokenLen : List Lit → Nat
  | [] => 0
  | .string s :: t => s.length + tokenLen t
  | .binary b :: t => b.length + tokenLen t
  | _ :: t => tokenLen t

/-- The values of the token of a row (sqlds:459-460). -/
def newAll : List Sql.Param → Except Fail (List Lit)
  | [] => .ok []
  | p :: t => do
    let v ← newFromSQL p
    let vs ← newAll t
    return v :: vs

/-- The token after the last row of a page (sqlds:456-472): a long one is replaced by that of this page, with `topmax` added,
and `list(None)` raises `TypeError`. -/
def nextToken (S : Page) (topmax : Int) (last : Row) : Except Fail (List Lit) := do
  let vs ← newAll last.order
  if tokenLen vs > 512 then
    match S.token with
    | none => .error .type
    | some t => if topmax < -2 ^ 31 ∨ topmax > 2 ^ 31 - 1 then .error .value else .ok (t ++ [.int32 topmax])
  else .ok vs

/-! ## The condition of the query -/

/-- The condition made of a token.  The text has brackets around every part (sqlds:616-630), so that it is modelled as a
tree; a column is given by its place. -/
inductive Cond where
  /-- `o > ?`, or `o < ?` for a column that descends -/
  | past (i : Nat) (desc : Bool) (p : Sql.Param)
  /-- `o = ?` -/
  | same (i : Nat) (p : Sql.Param)
  | or (a b : Cond)
  | and (a b : Cond)
deriving DecidableEq, Repr

/-- `PrepareSQLValue` (sqlds:3223-3289). -/
def prepare (v : Lit) : Except Fail Sql.Param :=
  match Sql.prepare v with
  | .ok p => .ok p
  | .error _ => .error .value

/-- `WhereSkiptokenClause` (sqlds:608-630) from column `i` on. -/
def skipCond : Nat → List Bool → List Lit → Except Fail Cond
  | i, d :: ds, v :: vs => do
    let p ← prepare v
    match ds with
    | [] => return .past i d p
    | _ :: _ =>
      let r ← skipCond (i + 1) ds vs
      return .or (.past i d p) (.and (.same i p) r)
  | _, _, _ => .error .index

/-- The condition of the query of a page (sqlds:423, 588-589): none without a token. -/
def pageCond (C : Coll) (S : Page) : Except Fail (Option Cond) :=
  match S.token with
  | none => .ok none
  | some vs => (skipCond 0 C.dirs vs).map some

/-! ## Reading the rows -/

/-- How the loop over the rows ends. -/
inductive End where
  /-- there are no more rows (sqlds:437-442) -/
  | noMore
  /-- the largest number of rows of a page (sqlds:453-476) -/
  | full (last : Row)
  /-- the number of rows asked for (sqlds:477-485) -/
  | topped
deriving DecidableEq, Repr

/-- `if skip:` (sqlds:443). -/
def skips : Option Int → Bool
  | some k => k != 0
  | none => false

/-- `n=n-1` and `if n<1:` if there is a limit (sqlds:453-455, 477-479). -/
def reached : Option Int → Bool
  | some n => decide (n - 1 < 1)
  | none => false

/-- The loop over the rows the database returns (sqlds:435-486): the rows it yields and how it ends. -/
def loop : List Row → (skip top topmax : Option Int) → List Row × End
  | [], _, _, _ => ([], .noMore)
  | r :: rs, skip, top, topmax =>
    if skips skip then loop rs (skip.map (· - 1)) top topmax
    else if reached topmax then ([r], .full r)
    else if reached top then ([r], .topped)
    else
      let rest := loop rs skip (top.map (· - 1)) (topmax.map (· - 1))
      (r :: rest.1, rest.2)

/-- `pageGenerator` (sqlds:409-492) run to its end over the rows of the answer: the rows it yields, and the state or the
exception.  `setNext` is `setNextPage`; at the end of the rows `self.skipToken` is set and not `self.skiptoken`
(sqlds:441). -/
def iterpage (S : Page) (topmax : Option Int) (setNext : Bool) (rows : List Row) : List Row × Except Fail Page :=
  if S.top = some 0 then ([], .ok S)
  else
    let out := loop rows S.skip S.top topmax
    (out.1,
      match out.2 with
      | .noMore => .ok (if setNext then { S with top := some 0, skip := some 0 } else S)
      | .full last =>
        match nextToken S (topmax.getD 0) last with
        | .error e => .error e
        | .ok t => .ok (if setNext then { S with next := some t, token := some t, skip := some 0 } else { S with next := some t })
      | .topped => .ok (if setNext then { S with skip := some (S.skip.getD 0 + S.top.getD 0) } else S))

/-! ## A client that follows the links -/

/-- What a link to the next page says of paging (core:2384-2401): the token, but neither `$top` nor `$skip`.  Of a request
without `$top` or `$skip` the server passes `None` (server:494-496). -/
structure Link where
  top : Option Int
  skip : Option Int
  token : Option Str
deriving DecidableEq, Repr

/-- `GetNextPageLocation` (core:2384-2401). -/
def nextLink (fin : Bool → Nat → Int → Str) (S : Page) : Option Link :=
  (nextSkipToken fin S).map fun t => { top := none, skip := none, token := some t }

end Verif.OData.SqlPage
