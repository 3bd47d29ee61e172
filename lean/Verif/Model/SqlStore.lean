/-!
# Changes of a SQL store

Models `SQLTransaction` and the methods of `SQLEntityCollection` and of the navigation collections that insert, update and delete
entities and links (`pyslet/pyslet/odata2/sqlds.py`, cited as *sqlds*).

A thread gets the same connection for all the collections it opens (sqlds:2892-2901, see `Verif.Model.SqlPool`), so that there is
one connection here, with what has been committed and what it sees itself.  Keys are single numbers; the other data of an entity
is a number, which stands for all its properties.  Concurrency tokens are modelled in `Verif.Model.Tokens`.
-/

namespace Verif.OData.Store

/-- Entity sets. -/
abbrev SetId := Nat

/-- Keys of entities. -/
abbrev Key := Nat

/-- An end of an association set: the association set, and which of its two ends. -/
abbrev End := Nat × Bool

/-- `otherEnd`. -/
def other (e : End) : End := (e.1, !e.2)

/-- `edm.Multiplicity`. -/
inductive Mult where
  | one
  | opt
  | many
deriving DecidableEq

/-- The model: for every end its entity set, its multiplicity, and whether a navigation property starts there; for every entity
set its ends (`linkEnds`), in any order. -/
structure Schema where
  set : End → SetId
  mult : End → Mult
  nav : End → Bool
  ends : SetId → List End

/-- Where the links are stored, seen from an end (sqlds:2766-2811). -/
inductive Place where
  /-- a foreign key in the table of this end -/
  | own
  /-- a foreign key in the table of the other end -/
  | other
  /-- an auxiliary table -/
  | aux
deriving DecidableEq

/-- `BindNavigationProperty` (sqlds:2766-2811). -/
def Schema.place (S : Schema) (e : End) : Place :=
  match S.mult e, S.mult (Store.other e) with
  | .one, .one | .opt, .opt | .many, .many => .aux
  | .one, .opt | .one, .many | .opt, .many => .other
  | .opt, .one | .many, .one | .many, .opt => .own

/-- The flag of a foreign key that it may be `NULL` (sqlds:2795-2811). -/
def Schema.nullable (S : Schema) (e : End) : Bool := S.mult (Store.other e) == .opt

/-- A row: the key, the other data, and the foreign keys which are not `NULL`. -/
structure Row where
  key : Key
  data : Nat
  fks : List (End × Key)
deriving DecidableEq

/-- The tables: rows with their entity set, and the rows of the auxiliary tables: the association set and the keys at its ends
`false` and `true`. -/
structure DB where
  rows : List (SetId × Row)
  links : List (Nat × Key × Key)
deriving DecidableEq

/-- The foreign key of a row. -/
def Row.fk (r : Row) (e : End) : Option Key := (r.fks.find? fun p => p.1 = e).map (·.2)

/-- The row of an entity. -/
def DB.row (d : DB) (s : SetId) (k : Key) : Option Row := (d.rows.find? fun p => p.1 = s ∧ p.2.key = k).map (·.2)

/-- No two rows of a table have the same key (sqlds:1768). -/
def DB.distinct (d : DB) : Bool := decide ((d.rows.map fun p => (p.1, p.2.key)).Nodup)

/-! ## Statements: the tables after them and the number of rows they touched -/

/-- `INSERT INTO` the table of an entity set (sqlds:1271-1281). -/
def insertRow (s : SetId) (r : Row) (d : DB) : DB × Nat := ({ d with rows := d.rows ++ [(s, r)] }, 1)

/-- Rows that are changed. -/
def changeRows (p : SetId × Row → Bool) (f : Row → Row) (d : DB) : DB × Nat :=
  ({ d with rows := d.rows.map fun x => if p x then (x.1, f x.2) else x }, d.rows.countP p)

/-- `UPDATE` of an entity (sqlds:1411-1424). -/
def updateRow (s : SetId) (k : Key) (data : Nat) (fks : List (End × Key)) : DB → DB × Nat :=
  changeRows (fun x => x.1 = s ∧ x.2.key = k) fun r =>
    { r with data := data, fks := fks ++ r.fks.filter fun p => ¬ fks.any fun q => q.1 = p.1 }

/-- `UPDATE` of a link (sqlds:1521-1540): with `fresh` only if there is none. -/
def setFk (s : SetId) (k : Key) (e : End) (target : Option Key) (fresh : Bool) : DB → DB × Nat :=
  changeRows (fun x => x.1 = s ∧ x.2.key = k ∧ (fresh = true → x.2.fk e = none)) fun r =>
    { r with fks := (target.toList.map fun t => (e, t)) ++ r.fks.filter fun p => p.1 ≠ e }

/-- `UPDATE` to remove a link (sqlds:1680-1697). -/
def unsetFk (s : SetId) (k : Key) (e : End) (target : Key) : DB → DB × Nat :=
  changeRows (fun x => x.1 = s ∧ x.2.key = k ∧ x.2.fk e = some target) fun r => { r with fks := r.fks.filter fun p => p.1 ≠ e }

/-- `UPDATE` to remove all links to a target (sqlds:1733-1744). -/
def unsetFks (s : SetId) (e : End) (target : Key) : DB → DB × Nat :=
  changeRows (fun x => x.1 = s ∧ x.2.fk e = some target) fun r => { r with fks := r.fks.filter fun p => p.1 ≠ e }

/-- `DELETE FROM` the table of an entity set (sqlds:1623-1631). -/
def deleteRow (s : SetId) (k : Key) (d : DB) : DB × Nat :=
  ({ d with rows := d.rows.filter fun x => ¬ (x.1 = s ∧ x.2.key = k) }, d.rows.countP fun x => x.1 = s ∧ x.2.key = k)

/-- A link as it is stored, from the key at an end and the key at the other. -/
def link (e : End) (from_ to : Key) : Nat × Key × Key := if e.2 then (e.1, to, from_) else (e.1, from_, to)

/-- The key of a stored link at an end. -/
def linkKey (e : End) (l : Nat × Key × Key) : Key := if e.2 then l.2.2 else l.2.1

/-- `INSERT INTO` an auxiliary table (sqlds:2277-2294). -/
def addLink (e : End) (from_ to : Key) (d : DB) : DB × Nat := ({ d with links := d.links ++ [link e from_ to] }, 1)

/-- `DELETE FROM` an auxiliary table (sqlds:2349-2353). -/
def dropLink (e : End) (from_ to : Key) (d : DB) : DB × Nat :=
  ({ d with links := d.links.filter fun l => l ≠ link e from_ to }, d.links.countP fun l => l = link e from_ to)

/-- `DELETE FROM` an auxiliary table, all links of an entity (sqlds:2373-2377, 2418-2427). -/
def dropLinks (e : End) (from_ : Key) (d : DB) : DB × Nat :=
  ({ d with links := d.links.filter fun l => ¬ (l.1 = e.1 ∧ linkKey e l = from_) },
    d.links.countP fun l => l.1 = e.1 ∧ linkKey e l = from_)

/-- The keys of the entities linked from an entity through an end (sqlds:1919-1945, 2045-2066, 2216-2247). -/
def linked (S : Schema) (e : End) (from_ : Key) (d : DB) : List Key :=
  match S.place e with
  | .own => ((d.row (S.set e) from_).bind (·.fk e)).toList
  | .other => (d.rows.filter fun x => x.1 = S.set (other e) ∧ x.2.fk (other e) = some from_).map (·.2.key)
  | .aux => (d.links.filter fun l => l.1 = e.1 ∧ linkKey e l = from_).map (linkKey (other e))

/-- The constraints of the tables as they are created (sqlds:1759-1795, 2429-2471): foreign keys that must not be `NULL`, that they
refer to rows, and unique links in auxiliary tables; that a foreign key is to be unique is not looked at (sqlds:1776).  The primary
keys are in `DB.distinct`. -/
def created (S : Schema) (d : DB) : Bool :=
  (d.rows.all fun x => (S.ends x.1).all fun e =>
    decide (S.place e ≠ .own) ||
      match x.2.fk e with
      | none => S.nullable e
      | some k => (d.row (S.set (other e)) k).isSome) &&
  (d.links.all fun l => (d.row (S.set (l.1, false)) l.2.1).isSome && (d.row (S.set (l.1, true)) l.2.2).isSome) &&
  decide d.links.Nodup &&
  decide ((d.links.filter fun l => S.mult (l.1, false) ≠ .many).map fun l => (l.1, l.2.1)).Nodup &&
  decide ((d.links.filter fun l => S.mult (l.1, false) ≠ .many).map fun l => (l.1, l.2.2)).Nodup

/-! ## Transactions -/

/-- The exceptions. -/
inductive Exn where
  /-- `dbapi.IntegrityError` -/
  | integrity
  /-- any other `dbapi.Error` -/
  | database
  /-- `SQLError` -/
  | sqlError
  /-- `edm.ConstraintError` -/
  | constraint
  /-- `edm.NavigationError` -/
  | navigation
  /-- `edm.EntityExists` -/
  | entityExists
  /-- `edm.NonExistentEntity` -/
  | nonExistent
  | key
  | type
  | name
  | attribute
deriving DecidableEq

/-- The database: the constraints of the tables besides the primary keys, which of its statements and commits fail (the `n`-th
one, with `true` for `IntegrityError`), and whether it can roll back. -/
structure Env where
  check : DB → Bool
  fault : Nat → Option Bool
  rollbacks : Bool

/-- A `SQLTransaction` (sqlds:152-157). -/
structure Trans where
  cursor : Bool
  noCommit : Nat
  queryCount : Nat

/-- A new one. -/
def Trans.new : Trans := { cursor := false, noCommit := 0, queryCount := 0 }

/-- The connection: what has been committed, what it sees itself, the number of statements and commits so far, everything that has
ever been committed through it; and the entity objects of the program whose `exists` has been set. -/
structure World where
  committed : DB
  current : DB
  clock : Nat
  history : List DB
  marked : List Nat

/-- A method with a transaction. -/
def M (α : Type) : Type := Trans × World → Except Exn α × (Trans × World)

instance : Monad M where
  pure x := fun s => (.ok x, s)
  bind m f := fun s =>
    match m s with
    | (.ok x, s') => f x s'
    | (.error e, s') => (.error e, s')

/-- `raise`. -/
def raise {α : Type} (e : Exn) : M α := fun s => (.error e, s)

/-- `Begin` (sqlds:159-167). -/
def begin_ : M Unit := fun (t, w) =>
  (.ok (), if t.cursor then { t with noCommit := t.noCommit + 1 } else { t with cursor := true }, w)

/-- The exception of a failure. -/
def failure (integrity : Bool) : Exn := if integrity then .integrity else .database

/-- `Execute` (sqlds:169-179) of a statement that changes tables, and its `rowcount`. -/
def execute (env : Env) (f : DB → DB × Nat) : M Nat := fun (t, w) =>
  let w' := { w with clock := w.clock + 1 }
  match env.fault w.clock with
  | some b => (.error (failure b), t, w')
  | none =>
    if (f w.current).1.distinct && env.check (f w.current).1 then
      (.ok (f w.current).2, { t with queryCount := t.queryCount + 1 }, { w' with current := (f w.current).1 })
    else (.error .integrity, t, w')

/-- `Execute` of a query and its answer. -/
def query {α : Type} (env : Env) (f : DB → α) : M α := fun (t, w) =>
  let w' := { w with clock := w.clock + 1 }
  match env.fault w.clock with
  | some b => (.error (failure b), t, w')
  | none => (.ok (f w.current), { t with queryCount := t.queryCount + 1 }, w')

/-- `Commit` (sqlds:181-187). -/
def commit (env : Env) : M Unit := fun (t, w) =>
  if t.noCommit > 0 then (.ok (), t, w)
  else
    let w' := { w with clock := w.clock + 1 }
    match env.fault w.clock with
    | some b => (.error (failure b), t, w')
    | none => (.ok (), t, { w' with committed := w.current, history := w.history ++ [w.current] })

/-- `Rollback` (sqlds:189-227) with `swallowErr`: if the database cannot roll back, the handler names a variable that does not
exist (sqlds:216). -/
def rollback (env : Env) : M Unit := fun (t, w) =>
  if t.noCommit > 0 then (.ok (), t, w)
  else if env.rollbacks then (.ok (), t, { w with current := w.committed })
  else (.error .name, t, w)

/-- What `Rollback` raises for an exception (sqlds:221-226). -/
def reraised : Exn → Exn
  | .integrity | .database => .sqlError
  | e => e

/-- `Close` (sqlds:229-237). -/
def close (t : Trans) : Trans :=
  if t.noCommit > 0 then { t with noCommit := t.noCommit - 1 }
  else { t with cursor := false, queryCount := 0 }

/-- The pattern of all methods (sqlds:135-144): `Begin`, the body and `Commit`; after an exception `Rollback`, with another
exception for `IntegrityError` in some of them; `Close` at the end. -/
def method {α : Type} (env : Env) (onIntegrity : Option Exn) (body : M α) : M α := fun s =>
  let after (s : Trans × World) (e : Exn) : Except Exn α × (Trans × World) :=
    match rollback env s with
    | (.ok _, s') => (.error e, s')
    | (.error e', s') => (.error e', s')
  let (r, t, w) :=
    match (do begin_; let x ← body; commit env; pure x) s with
    | (.ok x, s') => (.ok x, s')
    | (.error e, s') =>
      match e, onIntegrity with
      | .integrity, some e' => after s' e'
      | e, _ => after s' (reraised e)
  (r, close t, w)

/-- A method that is called without a transaction makes a new one. -/
def own {α : Type} (m : M α) : M α := fun (t, w) =>
  match m (Trans.new, w) with
  | (r, _, w') => (r, t, w')

/-! ## Entities of the program -/

mutual

/-- An entity object: its entity set, key and data, the name of the object, whether it has been read from the store, and its
bindings. -/
inductive Ent where
  | mk (set : SetId) (key : Key) (data : Nat) (oid : Nat) (old : Bool) (navs : Navs)

/-- The ends of the entity set with what is bound to them (nothing if no navigation property starts there).  The loops of the
first step follow `linkEnds` and the loops of the third step the order of declaration; here they have the same order. -/
inductive Navs where
  | nil
  | cons (e : End) (bs : Binds) (rest : Navs)

/-- What is bound: keys of existing entities, and entities. -/
inductive Binds where
  | nil
  | key (k : Key) (rest : Binds)
  | ent (e : Ent) (rest : Binds)

end

/-- The key. -/
def Ent.key : Ent → Key
  | .mk _ k _ _ _ _ => k

/-- `exists`. -/
def Ent.existing (w : World) : Ent → Bool
  | .mk _ _ _ oid old _ => old || w.marked.contains oid

/-- `entity.exists`. -/
def isOld (b : Ent) : M Bool := fun s => (.ok (b.existing s.2), s)

/-- `entity.exists=True` -/
def mark (oid : Nat) : M Unit := fun (t, w) => (.ok (), t, { w with marked := oid :: w.marked })

/-- `collection[key]` of an entity set (sqlds:426-458): a method with a transaction of its own. -/
def getitem (env : Env) (s : SetId) (k : Key) : M Unit :=
  own (method env none do
    let found ← query env fun d => (d.row s k).isSome
    if found then pure () else raise .key)

/-- `UpdateLink` (sqlds:1484-1556); `e` is the end whose table has the foreign key. -/
def updateLink (env : Env) (S : Schema) (k : Key) (e : End) (target : Option Key) (noReplace : Bool) : M Unit :=
  if ¬ S.nullable e ∧ target = none then raise .navigation
  else method env (some .key) do
    let n ← execute env (setFk (S.set e) k e target noReplace)
    if n = 0 then raise (if noReplace ∧ target.isSome then .navigation else .key) else pure ()

/-- `InsertLink` of the navigation collections (sqlds:2003-2004, 2085-2086, 2268-2305). -/
def insertLink (env : Env) (S : Schema) (e : End) (from_ to : Key) : M Unit :=
  match S.place e with
  | .own => updateLink env S from_ e (some to) true
  | .other => updateLink env S to (other e) (some from_) true
  | .aux => method env (some .navigation) do
    let _ ← execute env (addLink e from_ to)
    pure ()

/-- `ClearLinks` (sqlds:1704-1757, 2362-2385). -/
def clearLinks (env : Env) (S : Schema) (e : End) (from_ : Key) : M Unit :=
  match S.place e with
  | .own => raise .attribute
  | .other => method env (some .navigation) do
    let _ ← execute env (unsetFks (S.set (other e)) (other e) from_)
    pure ()
  | .aux => method env none do
    let _ ← execute env (dropLinks e from_)
    pure ()

/-- `ReplaceLink` (sqlds:2006-2008, 2091-2109, 2307-2327). -/
def replaceLink (env : Env) (S : Schema) (e : End) (from_ to : Key) : M Unit :=
  match S.place e with
  | .own => updateLink env S from_ e (some to) false
  | .other =>
    if S.mult e = .one then raise .navigation
    else method env (some .navigation) do
      clearLinks env S e from_
      insertLink env S e from_ to
  | .aux =>
    if S.mult (other e) = .many then
      method env (some .navigation) do
        clearLinks env S e from_
        insertLink env S e from_ to
    else raise .navigation

/-- `DeleteLink` (sqlds:1643-1702, 2010-2011, 2120-2126, 2340-2360): the message of the `KeyError` for a foreign key cannot be
made (sqlds:1697, `str` with two arguments). -/
def deleteLink (env : Env) (S : Schema) (e : End) (from_ to : Key) : M Unit :=
  match S.place e with
  | .own =>
    if ¬ S.nullable e then raise .navigation
    else method env none do
      let n ← execute env (unsetFk (S.set e) from_ e to)
      if n = 0 then raise .type else pure ()
  | .other => pure ()
  | .aux => method env none do
    let n ← execute env (dropLink e from_ to)
    if n = 0 then raise .key else pure ()

mutual

/-- `InsertEntitySQL` (sqlds:1144-1325) with the transaction of the caller.  `ok` is `false` if a transaction has been passed for
the list of foreign keys (sqlds:1392), which fails when something is appended to it or it is added to a list. -/
def insertIn (env : Env) (S : Schema) : Ent → Option End → List (End × Key) → Bool → M Unit
  | .mk set key data oid old navs, from_, fks, ok => fun s =>
    if (Ent.mk set key data oid old navs).existing s.2 then (.error .entityExists, s)
    else method env (some .constraint) (do
      let fks ← before env S from_ fks ok navs
      if ok then
        let _ ← execute env (insertRow set ⟨key, data, fks⟩)
        mark oid
        after env S key navs
      else raise .type) s

/-- The first step (sqlds:1229-1267): required links and foreign keys. -/
def before (env : Env) (S : Schema) (from_ : Option End) (fks : List (End × Key)) (ok : Bool) : Navs → M (List (End × Key))
  | .nil => pure fks
  | .cons e bs rest =>
    if S.mult (other e) = .one ∧ from_ = some e then before env S from_ fks ok rest
    else if S.mult (other e) = .one ∧ ¬ S.nav e then raise .navigation
    else
      match bs with
      | .nil => if S.mult (other e) = .one then raise .navigation else before env S from_ fks ok rest
      | .key k more =>
        if S.place e = .own ∧ S.nav e then
          match more with
          | .nil => do
            getitem env (S.set (other e)) k
            if ok then before env S from_ (fks ++ [(e, k)]) ok rest else raise .attribute
          | _ => raise .navigation
        else before env S from_ fks ok rest
      | .ent b more =>
        if S.place e = .own ∧ S.nav e then
          match more with
          | .nil => do
            let old ← isOld b
            if old then pure () else insertIn env S b (some (other e)) [] true
            if ok then before env S from_ (fks ++ [(e, b.key)]) ok rest else raise .attribute
          | _ => raise .navigation
        else before env S from_ fks ok rest

/-- The third step (sqlds:1284-1313). -/
def after (env : Env) (S : Schema) (key : Key) : Navs → M Unit
  | .nil => pure ()
  | .cons e bs rest => do
    if S.place e = .own ∨ ¬ S.nav e then pure () else afterBinds env S key e bs
    after env S key rest

/-- The bindings of a navigation property in the third step (sqlds:1296-1313). -/
def afterBinds (env : Env) (S : Schema) (key : Key) (e : End) : Binds → M Unit
  | .nil => pure ()
  | .key k more => do
    getitem env (S.set (other e)) k
    insertLink env S e key k
    afterBinds env S key e more
  | .ent b more => do
    let old ← isOld b
    if old then insertLink env S e key b.key
    else if S.place e = .other then insertIn env S b (some (other e)) [(other e, key)] true
    else do
      insertIn env S b (some (other e)) [] true
      insertLink env S e key b.key
    afterBinds env S key e more

end

/-- `InsertEntity` (sqlds:1138-1143). -/
def insertEntity (env : Env) (S : Schema) (b : Ent) : M Unit := own (insertIn env S b none [] true)

/-! ## Updates -/

/-- The first step of `UpdateEntity` (sqlds:1366-1397): a new entity is inserted with the transaction in the place of the list of
foreign keys (sqlds:1392); for several bindings the exception has no name (sqlds:1382). -/
def beforeUpdate (env : Env) (S : Schema) (fks : List (End × Key)) : Navs → M (List (End × Key))
  | .nil => pure fks
  | .cons e bs rest =>
    if S.place e = .own ∧ S.nav e then
      match bs with
      | .nil => beforeUpdate env S fks rest
      | .key k .nil => do
        getitem env (S.set (other e)) k
        beforeUpdate env S (fks ++ [(e, k)]) rest
      | .ent b .nil => do
        let old ← isOld b
        if old then pure () else own (insertIn env S b (some (other e)) [] false)
        beforeUpdate env S (fks ++ [(e, b.key)]) rest
      | _ => raise .name
    else beforeUpdate env S fks rest

/-- The link to an existing entity (sqlds:1453-1457, 1468-1471). -/
def relink (env : Env) (S : Schema) (e : End) (from_ to : Key) : M Unit :=
  if S.mult (other e) = .many then insertLink env S e from_ to else replaceLink env S e from_ to

/-- The bindings of a navigation property in the third step of `UpdateEntity` (sqlds:1447-1472): with an auxiliary table the new
entity is inserted without the transaction (sqlds:1467). -/
def updateBinds (env : Env) (S : Schema) (key : Key) (e : End) : Binds → M Unit
  | .nil => pure ()
  | .key k more => do
    getitem env (S.set (other e)) k
    relink env S e key k
    updateBinds env S key e more
  | .ent b more => do
    let old ← isOld b
    if old then relink env S e key b.key
    else if S.place e = .other then do
      if S.mult (other e) = .many then pure () else clearLinks env S e key
      insertIn env S b (some (other e)) [(other e, key)] true
    else do
      own (insertIn env S b (some (other e)) [] true)
      relink env S e key b.key
    updateBinds env S key e more

/-- The third step of `UpdateEntity` (sqlds:1438-1472). -/
def afterUpdate (env : Env) (S : Schema) (key : Key) : Navs → M Unit
  | .nil => pure ()
  | .cons e bs rest => do
    if S.place e = .own ∨ ¬ S.nav e then pure () else updateBinds env S key e bs
    afterUpdate env S key rest

/-- `UpdateEntity` (sqlds:1327-1482). -/
def updateEntity (env : Env) (S : Schema) : Ent → M Unit
  | .mk set key data oid old navs => fun s =>
    if ¬ (Ent.mk set key data oid old navs).existing s.2 then (.error .nonExistent, s)
    else own (method env (some .constraint) do
      let fks ← beforeUpdate env S [] navs
      let n ← execute env (updateRow set key data fks)
      if n = 0 then raise .key else pure ()
      afterUpdate env S key navs) s

/-! ## Deletion -/

/-- `links.values()` (sqlds:338-380, 415-417): the linked entities, read in a transaction of its own. -/
def values (env : Env) (S : Schema) (e : End) (from_ : Key) : M (List Key) :=
  own (method env none (query env (linked S e from_)))

/-- A loop. -/
def each {α : Type} (f : α → M Unit) : List α → M Unit
  | [] => pure ()
  | x :: rest => do
    f x
    each f rest

/-- `DeleteEntity` (sqlds:1563-1641) with the transaction of the caller; `n` bounds the depth of cascades. -/
def deleteIn (env : Env) (S : Schema) : Nat → SetId → Key → Option End → M Unit
  | 0, _, _, _ => raise .type
  | n + 1, set, key, from_ =>
    method env none do
      each (fun e =>
        if some e = from_ ∨ S.place e = .own then pure ()
        else if S.mult e = .one then
          if S.nav e then do
            let targets ← values env S e key
            each (fun k => do
              deleteLink env S e key k
              deleteIn env S n (S.set (other e)) k (some (other e))) targets
          else raise .navigation
        else if S.nav e then clearLinks env S e key
        else if S.place e = .aux then do
          let _ ← execute env (dropLinks e key)
          pure ()
        else clearLinks env S e key) (S.ends set)
      let count ← execute env (deleteRow set key)
      if count = 0 then raise .key else if count > 1 then raise .name else pure ()

/-- `del collection[key]` (sqlds:1558-1561). -/
def deleteEntity (env : Env) (S : Schema) (n : Nat) (set : SetId) (key : Key) : M Unit := do
  getitem env set key
  own (deleteIn env S n set key none)

/-- A statement on the store as a whole: the program calls a method with no transaction open. -/
def call (m : M Unit) (w : World) : Except Exn Unit × World :=
  match m (Trans.new, w) with
  | (r, _, w') => (r, w')

/-- A connection on which nothing is going on. -/
def quiet (d : DB) (clock : Nat) (marked : List Nat) : World :=
  { committed := d, current := d, clock := clock, history := [], marked := marked }

end Verif.OData.Store
