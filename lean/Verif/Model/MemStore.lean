import Verif.Model.Dict
import Verif.Model.Paging

/-!
# The in-memory entity store

`InMemoryEntityStore`, `EntityCollection` and `Entity` of pyslet/pyslet/odata2/memds.py: how entities are kept as
tuples, read back, selected, filtered, updated and given media streams.  Links between entities are in
`Model/MemLinks.lean`.

Simplifications: a simple value is null, an integer or a text, and is kept as it is given (the ranges of the EDM types
are not modelled); a filter is any function from the properties of an entity to true or false, an ordering rule any
comparison of them (expressions are not modelled); a numeric key is an integer.
-/

namespace Verif.MemStore

open Verif

/-- The exceptions raised here. -/
inductive SErr where
  /-- `KeyError` -/
  | key
  /-- `edm.ConstraintError` -/
  | constraint
  /-- `edm.EntityExists` -/
  | entityExists
  /-- `TypeError` -/
  | type
  /-- `IndexError` -/
  | index
deriving DecidableEq, Repr

/-- A Python value of a simple property that is not null. -/
inductive Atom where
  | int (i : Int)
  | text (s : Str)
deriving DecidableEq

/-- The type of a property (pyslet/pyslet/odata2/csdl.py, `Property`): simple, with a default, or complex. -/
inductive Shape where
  | simple (dflt : Option Atom)
  | complex (fields : List Shape)

/-- The value of a property, or the value that is kept for it: a complex value is a tuple. -/
inductive Val where
  | atom (v : Option Atom)
  | tup (vs : List Val)

/-- A key: the values of the key properties in order.  (Python uses the value itself if there is one key property.) -/
abbrev Key := List (Option Atom)

/-- What is kept for an entity: a tuple. -/
abbrev Row := List Val

/-- An entity type: the data properties in the order of declaration, the names of the key properties, and whether there
is one key property and it is numeric. -/
structure EType where
  props : List (Str × Shape)
  keys : List Str
  numericKey : Bool

/-- An entity object: the values of its data properties in order, the names of those selected (`none` for all of them),
and the `exists` flag (pyslet/pyslet/odata2/csdl.py:1864-1940). -/
structure Ent where
  vals : List (Str × Val)
  selected : Option (List Str)
  exists_ : Bool

/-- The entity store (pyslet/pyslet/odata2/memds.py:32-42). -/
structure Store where
  data : List (Key × Row)
  streams : List (Key × (Str × Str))
  nextKey : Option Int

/-- The query options of a collection (pyslet/pyslet/odata2/csdl.py:2417-2418). -/
structure Coll where
  select : Option (List Str)
  filter : Option (List (Str × Val) → Bool)

mutual
/-- A new value: the default or null (pyslet/pyslet/odata2/csdl.py, `Property.__call__`). -/
def blank : Shape → Val
  | .simple d => .atom d
  | .complex fs => .tup (blanks fs)
/-- The fields of a new complex value. -/
def blanks : List Shape → List Val
  | [] => []
  | s :: ss => blank s :: blanks ss
end

mutual
/-- `SetNull` and `SetFromValue(None)` (pyslet/pyslet/odata2/memds.py:115-118). -/
def null : Shape → Val
  | .simple _ => .atom none
  | .complex fs => .tup (nulls fs)
/-- The fields of a complex value that is set to null. -/
def nulls : List Shape → List Val
  | [] => []
  | s :: ss => null s :: nulls ss
end

mutual
/-- `SetFromValue` or `SetComplexFromTuple` (pyslet/pyslet/odata2/memds.py:110-113 and 122-128).  A tuple for a simple
property and a simple value for a complex one are errors (a text for a complex property would be taken apart character
by character; simplified to an error). -/
def assign : Shape → Val → Except SErr Val
  | .simple _, .atom v => .ok (.atom v)
  | .simple _, .tup _ => .error .type
  | .complex fs, .tup vs => (assigns fs vs).map .tup
  | .complex _, .atom _ => .error .type
/-- The fields of a complex value from a tuple: `zip` stops at the end of the shorter. -/
def assigns : List Shape → List Val → Except SErr (List Val)
  | [], _ => .ok []
  | s :: ss, [] => .ok (blank s :: blanks ss)
  | s :: ss, v :: vs => do
    let v ← assign s v
    let vs ← assigns ss vs
    .ok (v :: vs)
end

/-- `Selected` (pyslet/pyslet/odata2/csdl.py:2182-2187). -/
def Ent.isSelected (e : Ent) (name : Str) : Bool :=
  match e.selected with
  | none => true
  | some ns => ns.contains name

/-- The selection of an entity (`Expand`, pyslet/pyslet/odata2/csdl.py:2151-2159): the names in the rule, or all data
properties. -/
def selection (t : EType) (select : List Str) : List Str :=
  (t.props.map (·.1)).filter fun n => select.contains n || select.contains "*".toList

/-- `Key` (pyslet/pyslet/odata2/csdl.py:2086-2107).  A complex value is not a key. -/
def keyOf (t : EType) (e : Ent) : Except SErr Key :=
  let k := t.keys.map fun n => match Dict.get e.vals n with
    | some (.atom v) => v
    | _ => none
  if k.all (·.isNone) then .error .key else .ok k

/-- The tuple made by `AddEntity` (pyslet/pyslet/odata2/memds.py:63-71). -/
def toRow (e : Ent) : Row := (e.vals.filter fun p => e.isSelected p.1).map (·.2)

/-- Whether a property is read: it is selected or a key (pyslet/pyslet/odata2/memds.py:107). -/
def wanted (keys : List Str) (sel : Option (List Str)) (n : Str) : Bool :=
  match sel with
  | none => true
  | some ns => ns.contains n || keys.contains n

/-- Setting the properties of a new entity from the tuple (pyslet/pyslet/odata2/memds.py:104-118): those selected and
the keys from the tuple, the others to null.  Properties beyond the end of the tuple keep their defaults, or null if
they are not selected (`Expand`, pyslet/pyslet/odata2/csdl.py:2161-2164). -/
def fromRow (keys : List Str) (sel : Option (List Str)) : List (Str × Shape) → Row → Except SErr (List (Str × Val))
  | [], _ => .ok []
  | (n, s) :: ps, row => do
    let v ← match row with
      | [] => .ok (if wanted keys sel n then blank s else null s)
      | v :: _ => if wanted keys sel n then assign s v else .ok (null s)
    let rest ← fromRow keys sel ps row.tail
    .ok ((n, v) :: rest)

/-- `ReadEntity` of a row (pyslet/pyslet/odata2/memds.py:96-120). -/
def readRow (t : EType) (select : Option (List Str)) (row : Row) : Except SErr Ent := do
  let sel := select.map (selection t)
  let vals ← fromRow t.keys sel t.props row
  .ok { vals := vals, selected := sel, exists_ := true }

/-- `CheckFilter` (pyslet/pyslet/odata2/core.py:2411-2425). -/
def checkFilter (c : Coll) (e : Ent) : Bool :=
  match c.filter with
  | none => true
  | some f => f e.vals

/-- `EntityCollection.__getitem__` (pyslet/pyslet/odata2/memds.py:430-436). -/
def getItem (t : EType) (c : Coll) (st : Store) (key : Key) : Except SErr Ent :=
  match Dict.get st.data key with
  | none => .error .key
  | some row => do
    let e ← readRow t c.select row
    if checkFilter c e then .ok e else .error .key

/-- `key in collection` (`DictionaryLike.__contains__`, pyslet/pyslet/odata2/csdl.py:194-203). -/
def contains (t : EType) (c : Coll) (st : Store) (key : Key) : Except SErr Bool :=
  match getItem t c st key with
  | .ok _ => .ok true
  | .error .key => .ok false
  | .error e => .error e

/-- `GenerateEntities` followed by `FilterEntities` and `ExpandEntities` (pyslet/pyslet/odata2/memds.py:81-94 and
424-428): with the keys of the store. -/
def generate (t : EType) (c : Coll) : List (Key × Row) → Except SErr (List (Key × Ent))
  | [] => .ok []
  | (k, row) :: rest => do
    let e ← readRow t c.select row
    let es ← generate t c rest
    .ok (if checkFilter c e then (k, e) :: es else es)

/-- `itervalues` (pyslet/pyslet/odata2/memds.py:424-428), with ordering rules as comparisons of properties. -/
def itervalues (t : EType) (c : Coll) (rules : List ((List (Str × Val) → List (Str × Val) → Bool) × Bool)) (st : Store) :
    Except SErr (List (Key × Ent)) := do
  let es ← generate t c st.data
  .ok (Paging.orderPlain (rules.map fun r => (fun a b => r.1 a.2.vals b.2.vals, r.2)) es)

/-- `__len__` (pyslet/pyslet/odata2/memds.py:415-422): no selection when counting. -/
def length (t : EType) (c : Coll) (st : Store) : Except SErr Nat :=
  match c.filter with
  | none => .ok st.data.length
  | some _ => (generate t { c with select := none } st.data).map List.length

/-- `NextKey`, looking for the next free integer (pyslet/pyslet/odata2/memds.py:228-229).  The number of entities and
one more steps are enough (`Props.next_key_free`). -/
def firstFree (data : List (Key × Row)) : Nat → Int → Int
  | 0, k => k
  | n + 1, k => if Dict.has data [some (.int k)] then firstFree data n (k + 1) else k

/-- The greatest integer key, if there is one (pyslet/pyslet/odata2/memds.py:221-224). -/
def maxKey (data : List (Key × Row)) : Option Int :=
  data.foldl (fun m p => match p.1 with
    | [some (.int i)] => some (match m with
      | none => i
      | some j => max i j)
    | _ => m) none

/-- `NextKey` (pyslet/pyslet/odata2/memds.py:211-230). -/
def nextKey (t : EType) (st : Store) : Except SErr (Int × Store) :=
  match st.nextKey with
  | some k =>
    let k := firstFree st.data (st.data.length + 1) k
    .ok (k, { st with nextKey := some k })
  | none =>
    if !t.numericKey then .error .key
    else
      let k := firstFree st.data (st.data.length + 1) ((maxKey st.data).getD 0)
      .ok (k, { st with nextKey := some k })

/-- `SetKey` with an integer (pyslet/pyslet/odata2/csdl.py:2109-2116). -/
def setKey (t : EType) (e : Ent) (k : Int) : Ent :=
  { e with vals := e.vals.map fun p => if t.keys.contains p.1 then (p.1, .atom (some (.int k))) else p }

/-- `EntityCollection.InsertEntity` without bindings (pyslet/pyslet/odata2/memds.py:389-412): the store afterwards, and
the key. -/
def insert (t : EType) (c : Coll) (st : Store) (e : Ent) : Except SErr (Key × Store) := do
  let (e, st) ← match keyOf t e with
    | .ok _ => .ok (e, st)
    | .error _ => do
      let (k, st) ← nextKey t st
      if e.exists_ then .error .entityExists
      .ok (setKey t e k, st)
  let key ← keyOf t e
  if ← contains t c st key then .error .constraint
  if e.exists_ then .error .entityExists
  .ok (key, { st with data := Dict.set st.data key (toRow e) })

/-- The loop of `UpdateEntity` (pyslet/pyslet/odata2/memds.py:145-154) over the properties: those selected are
written, `value[i]=…` beyond the end of the tuple is an error. -/
def updateRow (e : Ent) : List (Str × Val) → Row → Except SErr Row
  | [], row => .ok row
  | (n, _) :: ps, [] => if e.isSelected n then .error .index else updateRow e ps []
  | (n, v) :: ps, old :: row => do
    let rest ← updateRow e ps row
    .ok ((if e.isSelected n then v else old) :: rest)

/-- `EntityCollection.UpdateEntity` without bindings (pyslet/pyslet/odata2/memds.py:438-442 and 141-155). -/
def update (t : EType) (st : Store) (e : Ent) : Except SErr Store := do
  let key ← keyOf t e
  match Dict.get st.data key with
  | none => .error .key
  | some row => do
    let row ← updateRow e e.vals row
    .ok { st with data := Dict.set st.data key row }

/-- `DeleteEntity` without links (pyslet/pyslet/odata2/memds.py:201-209). -/
def delete (st : Store) (key : Key) : Except SErr Store :=
  if Dict.has st.data key then
    .ok { st with data := Dict.del st.data key, streams := Dict.del st.streams key }
  else .error .key

/-- `SetStreamFromGenerator` without an ETag (pyslet/pyslet/odata2/memds.py:346-371 and 157-159): the blocks are
joined. -/
def setStream (t : EType) (st : Store) (e : Ent) (type : Str) (blocks : List Str) : Except SErr Store := do
  let key ← keyOf t e
  .ok { st with streams := Dict.set st.streams key (type, blocks.flatten) }

/-- `ReadStream` (pyslet/pyslet/odata2/memds.py:130-139). -/
def readStream (st : Store) (key : Key) : Except SErr (Str × Str) :=
  if Dict.has st.data key then
    match Dict.get st.streams key with
    | some s => .ok s
    | none => .ok ("application/octet-stream".toList, [])
  else .error .key

/-- `NavigationCollection.__getitem__` (pyslet/pyslet/odata2/memds.py:543-552), `linked` being the keys linked to.  The
underlying collection has no query options. -/
def navGetItem (t : EType) (c : Coll) (st : Store) (linked : List Key) (key : Key) : Except SErr Ent :=
  if linked.contains key then do
    let e ← getItem t { select := none, filter := none } st key
    match c.filter with
    | none => if checkFilter c e then .ok e else .error .key
    | some _ => .ok e
  else .error .key

/-- `NavigationCollection.itervalues` before ordering (pyslet/pyslet/odata2/memds.py:531-541), with the keys.  An
entity that is linked to but does not exist is an error. -/
def navGenerate (t : EType) (c : Coll) (st : Store) : List Key → Except SErr (List (Key × Ent))
  | [] => .ok []
  | k :: ks => do
    let e ← getItem t { select := none, filter := none } st k
    let es ← navGenerate t c st ks
    .ok (if checkFilter c e then (k, e) :: es else es)

/-- A change to the store. -/
inductive Op where
  /-- `InsertEntity` through a collection with the given options -/
  | insert (c : Coll) (e : Ent)
  /-- `UpdateEntity` -/
  | update (e : Ent)
  /-- `del collection[key]` -/
  | delete (key : Key)
  /-- `SetStreamFromGenerator` -/
  | stream (e : Ent) (type : Str) (blocks : List Str)
  /-- `NewEntity(autoKey=True)` -/
  | newKey

/-- The store after a change.  A change that is refused leaves the entities and streams as they are. -/
def step (t : EType) (st : Store) : Op → Store
  | .insert c e => match insert t c st e with
    | .ok r => r.2
    | .error _ => st
  | .update e => match update t st e with
    | .ok st => st
    | .error _ => st
  | .delete key => match delete st key with
    | .ok st => st
    | .error _ => st
  | .stream e ty bs => match setStream t st e ty bs with
    | .ok st => st
    | .error _ => st
  | .newKey => match nextKey t st with
    | .ok r => r.2
    | .error _ => st

end Verif.MemStore
