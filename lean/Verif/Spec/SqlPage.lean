import Verif.Model.SqlPage

/-!
# What a database answers, and what is asked of pages

The meaning of the condition and of the order of a query, in the logic of SQL with its three values, and the reading of a
collection page by page while it changes.
-/

namespace Verif.Spec.SqlPage

open Verif Verif.OData Verif.OData.SqlPage

/-- `x < y` in SQL for numbers and for texts, by characters; unknown (`none`) if one of them is `NULL`. -/
def less : Sql.Param → Sql.Param → Option Bool
  | .int m, .int n => some (decide (m < n))
  | .text s, .text t => some (decide (s < t))
  | _, _ => none

/-- `x = y` in SQL. -/
def equal : Sql.Param → Sql.Param → Option Bool
  | .int m, .int n => some (decide (m = n))
  | .text s, .text t => some (decide (s = t))
  | _, _ => none

/-- `AND`. -/
def both : Option Bool → Option Bool → Option Bool
  | some false, _ => some false
  | _, some false => some false
  | some true, some true => some true
  | _, _ => none

/-- `OR`. -/
def either : Option Bool → Option Bool → Option Bool
  | some true, _ => some true
  | _, some true => some true
  | some false, some false => some false
  | _, _ => none

/-- What a condition says of a row with these values. -/
def truth (row : List Sql.Param) : Cond → Option Bool
  | .past i desc p =>
    match row[i]? with
    | some x => if desc then less x p else less p x
    | none => none
  | .same i p =>
    match row[i]? with
    | some x => equal x p
    | none => none
  | .or a b => either (truth row a) (truth row b)
  | .and a b => both (truth row a) (truth row b)

/-- The rows a query returns are those for which the condition is true. -/
def selected (c : Option Cond) (r : Row) : Bool :=
  match c with
  | none => true
  | some c => truth r.order c == some true

/-- `x` comes before `y` in an ascending column: `NULL` comes first (`nullsFirst`), as in SQLite, or last. -/
def first (nullsFirst : Bool) : Sql.Param → Sql.Param → Bool
  | .none, .none => false
  | .none, _ => nullsFirst
  | _, .none => !nullsFirst
  | x, y => less x y == some true

/-- A row comes before another by the first column in which they differ. -/
def before (nullsFirst : Bool) : List Bool → List Sql.Param → List Sql.Param → Bool
  | d :: ds, x :: xs, y :: ys =>
    (if d then first nullsFirst y x else first nullsFirst x y) || (x == y && before nullsFirst ds xs ys)
  | _, _, _ => false

/-- An answer of the database to a query: the selected rows in order. -/
def Answer (nullsFirst : Bool) (C : Coll) (table : List Row) (c : Option Cond) (rows : List Row) : Prop :=
  rows.Perm (table.filter (selected c)) ∧
    rows.Pairwise fun a b => before nullsFirst C.dirs b.order a.order = false

/-- The server answers a request with a page, and maybe a link. -/
def Served (T : Tables) (fin : Bool → Nat → Int → Str) (nullsFirst : Bool) (C : Coll) (topmax : Option Int)
    (table : List Row) (req : Link) (page : List Row) (next : Option Link) : Prop :=
  ∃ S c rows S', setPage T C req.top req.skip req.token = .ok S ∧ pageCond C S = .ok c ∧
    Answer nullsFirst C table c rows ∧ iterpage S topmax false rows = (page, .ok S') ∧ nextLink fin S' = next

/-- A client reads pages, following the links until there is none; every request finds another state of the table. -/
inductive Reading (T : Tables) (fin : Bool → Nat → Int → Str) (nullsFirst : Bool) (C : Coll) (topmax : Option Int) :
    Link → List (List Row) → List (List Row) → Prop where
  | last {table page req} : Served T fin nullsFirst C topmax table req page none →
      Reading T fin nullsFirst C topmax req [table] [page]
  | more {table page req next tables pages} : Served T fin nullsFirst C topmax table req page (some next) →
      Reading T fin nullsFirst C topmax next tables pages →
      Reading T fin nullsFirst C topmax req (table :: tables) (page :: pages)

/-- The first request: all entities. -/
def all : Link := { top := none, skip := none, token := none }

/-- The kinds of columns: whole numbers of 64 bits, or texts. -/
inductive Kind where
  | int
  | text

/-- A value of a column, not `NULL`. -/
inductive OfKind : Kind → Sql.Param → Prop where
  | int {n : Int} : -2 ^ 63 ≤ n → n ≤ 2 ^ 63 - 1 → OfKind .int (.int n)
  | text (s : Str) : OfKind .text (.text s)

/-- Values of columns of the given kinds. -/
inductive OfKinds : List Kind → List Sql.Param → Prop where
  | nil : OfKinds [] []
  | cons {k ks x xs} : OfKind k x → OfKinds ks xs → OfKinds (k :: ks) (x :: xs)

/-- The number of characters in the texts. -/
def size : List Sql.Param → Nat
  | [] => 0
  | .text s :: t => s.length + size t
  | _ :: t => size t

/-- The rows have values in all order columns, with at most 512 characters, and no two rows the same ones, as the keys are
among them. -/
structure Regular (C : Coll) (kinds : List Kind) (table : List Row) : Prop where
  columns : kinds.length = C.dirs.length
  kinds : ∀ r ∈ table, OfKinds kinds r.order
  short : ∀ r ∈ table, size r.order ≤ 512
  keys : table.Pairwise fun a b => a.order ≠ b.order

end Verif.Spec.SqlPage
