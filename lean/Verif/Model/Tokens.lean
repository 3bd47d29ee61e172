/-!
# Concurrency tokens

Models how entities are read, changed and written back under optimistic concurrency control:
`Entity.SetConcurrencyTokens` and `GenerateConcurrencyHash` (`pyslet/pyslet/odata2/csdl.py`, cited as *csdl*), the update and the
insertion of `SQLEntityCollection` (`sqlds.py`, cited as *sqlds*) and of the store in memory (`memds.py`, cited as *memds*).

There is one entity set, with simple properties only (the parts of complex values are hashed in place, csdl:2241-2250) and no
bindings.  Every method is one step: without bindings it executes one statement, and commits.  A client is a variable that holds
one entity.  The database compares values exactly, and never finds NULL equal to anything.  SHA-256 is an arbitrary function from
texts to strings of bytes.
-/

namespace Verif.OData.Tokens

/-- Texts. -/
abbrev Text := List Char

/-- Names of properties. -/
abbrev Name := Nat

/-- Keys of entities. -/
abbrev Key := Nat

/-- Clients. -/
abbrev Client := Nat

/-- Simple values: NULL, numbers, texts, bytes, and any other by its literal. -/
inductive Val where
  | null
  | int (i : Int)
  | text (s : Text)
  | bytes (b : List Nat)
  | other (s : Text)
deriving DecidableEq

/-- Types of properties, as far as `SetConcurrencyTokens` tells them apart (csdl:2272-2309): `int` has its largest value. -/
inductive Kind where
  | int (max : Int)
  | string
  | binary
  | dateTime
  | dateTimeOffset
  | guid
  | other
deriving DecidableEq

/-- `Edm.Int16` (csdl:1508-1516). -/
def Kind.int16 : Kind := .int 32767

/-- `Edm.Int32` (csdl:1531-1539). -/
def Kind.int32 : Kind := .int 2147483647

/-- `Edm.Int64` (csdl:1554-1562). -/
def Kind.int64 : Kind := .int 9223372036854775807

/-- A property of an entity type (csdl:3166-3190): `token` says that its concurrency mode is `Fixed`. -/
structure Property where
  name : Name
  kind : Kind
  token : Bool := false
  isKey : Bool := false
  maxLength : Option Nat := none
  fixedLength : Bool := false
deriving DecidableEq

/-- What is stored of an entity, apart from its key. -/
abbrev Row := Name → Val

/-- An entity in the hands of a client (csdl:2020-2080): what is selected (`none`: everything), and the values. -/
structure Entity where
  key : Key
  selected : Option (List Name)
  vals : Name → Val

/-- `Selected` (csdl:2182-2187). -/
def Entity.sel (e : Entity) (n : Name) : Bool :=
  match e.selected with
  | none => true
  | some l => l.contains n

/-- What a method may end with. -/
inductive Outcome where
  | ok
  | conflict
  | missing
  | valueError
  | nameError
  | sqlError
  | constraint
deriving DecidableEq

/-- Digits of bytes, as `%02X` or `%02x` prints them. -/
def hex (digit : Nat → Char) (b : List Nat) : Text := b.flatMap fun n => [digit (n / 16), digit (n % 16)]

/-- Digits above nine are capital letters (csdl:953). -/
def upper (n : Nat) : Char := if n < 10 then Char.ofNat (48 + n) else Char.ofNat (55 + n)

/-- Digits above nine are small letters (`hexdigest`). -/
def lower (n : Nat) : Char := if n < 10 then Char.ofNat (48 + n) else Char.ofNat (87 + n)

/-- `unicode` of a value (csdl:894-901, 945-956, 1572-1575); NULL is never asked for. -/
def literal : Val → Text
  | .null => []
  | .int i => (toString i).toList
  | .text s => s
  | .bytes b => hex upper b
  | .other s => s

/-- The text that `GenerateConcurrencyHash` hashes (csdl:2225-2239): the literals of all values, one after the other, without those
of tokens and keys and without those that are NULL. -/
def hashText (T : List Property) (vals : Name → Val) : Text :=
  T.flatMap fun p => if p.token || p.isKey then [] else literal (vals p.name)

/-- Cutting and filling a hash for a property (csdl:2274-2281, 2285-2292): the right-most part that fits; `None > n` is false in
Python 2, so that nothing is filled without a length. -/
def fit {α : Type} (p : Property) (fill : α) (h : List α) : List α :=
  match p.maxLength with
  | none => h
  | some n =>
    let h := if n < h.length then h.drop (h.length - n) else h
    if p.fixedLength && n > h.length then h ++ List.replicate (n - h.length) fill else h

/-- The new value of one token (csdl:2271-2309).  The branch for times names the class `DateTimeOffset`, which does not exist
(csdl:2297): everything that gets there ends with a `NameError`.  An integer that is not one cannot be read from a database. -/
def nextToken (sha : Text → List Nat) (T : List Property) (vals : Name → Val) (p : Property) : Except Outcome Val :=
  match p.kind with
  | .binary => .ok (.bytes (fit p 0 (sha (hashText T vals))))
  | .string => .ok (.text (fit p '0' (hex lower (sha (hashText T vals)))))
  | .int max =>
    match vals p.name with
    | .null => .ok (.int 1)
    | .int i => if i + 1 > max then .error .valueError else .ok (.int (i + 1))
    | _ => .error .valueError
  | _ => .error .nameError

/-- Changing one value. -/
def setVal (vals : Name → Val) (n : Name) (v : Val) : Name → Val := fun m => if m = n then v else vals m

/-- `SetConcurrencyTokens` (csdl:2252-2309): the values, changed in place as far as it got, and how it ended. -/
def setTokens (sha : Text → List Nat) (T : List Property) : List Property → (Name → Val) → (Name → Val) × Outcome
  | [], vals => (vals, .ok)
  | p :: ps, vals =>
    if p.token then
      match nextToken sha T vals p with
      | .ok v => setTokens sha T ps (setVal vals p.name v)
      | .error o => (vals, o)
    else setTokens sha T ps vals

/-- The stored entities. -/
abbrev Table := Key → Option Row

/-- Changing the table at one key. -/
def setRow (t : Table) (k : Key) (r : Option Row) : Table := fun j => if j = k then r else t j

/-- The columns that `FieldGenerator` yields for an update (sqlds:704-730): selected, and not of the key. -/
def fields (T : List Property) (e : Entity) : List Property := T.filter fun p => e.sel p.name && !p.isKey

/-- `WHERE` with the tokens (sqlds:1407-1411, 1420-1424): every selected token must equal the stored value, as SQL compares. -/
def agrees (T : List Property) (e : Entity) (r : Row) : Bool :=
  (fields T e).all fun p => !p.token || (e.vals p.name != .null && r p.name == e.vals p.name)

/-- `SET` (sqlds:1414-1419). -/
def assigned (T : List Property) (e : Entity) (vals : Name → Val) (r : Row) : Row :=
  fun n => if (fields T e).any (·.name == n) then vals n else r n

/-- `UpdateEntity` without bindings (sqlds:1399-1432, 1476-1485): the constraints are taken before the tokens of the entity are
changed; the entity keeps the changed tokens however the statement ends.  Without any column the statement is malformed.
`fails`: the driver raises an error when it executes the statement. -/
def updateSQL (sha : Text → List Nat) (T : List Property) (fails : Bool) (e : Entity) (t : Table) : Entity × Table × Outcome :=
  match setTokens sha T T e.vals with
  | (vals, .ok) =>
    let e' := { e with vals := vals }
    if fails || (fields T e).isEmpty then (e', t, .sqlError)
    else
      match t e.key with
      | none => (e', t, if (fields T e).any (·.token) then .conflict else .missing)
      | some r =>
        if agrees T e r then (e', setRow t e.key (some (assigned T e vals r)), .ok)
        else (e', t, .conflict)
  | (vals, o) => ({ e with vals := vals }, t, o)

/-- `InsertEntitySQL` without bindings (sqlds:1273-1285, 1316-1329) of a new entity, in which everything is selected. -/
def insertSQL (sha : Text → List Nat) (T : List Property) (e : Entity) (t : Table) : Entity × Table × Outcome :=
  match setTokens sha T T e.vals with
  | (vals, .ok) =>
    match t e.key with
    | some _ => ({ e with vals := vals }, t, .constraint)
    | none => ({ e with vals := vals }, setRow t e.key (some (assigned T e vals fun _ => .null)), .ok)
  | (vals, o) => ({ e with vals := vals }, t, o)

/-- `UpdateEntity` of the store in memory (memds:141-155, 438-444). -/
def updateMem (T : List Property) (e : Entity) (t : Table) : Entity × Table × Outcome :=
  match t e.key with
  | none => (e, t, .missing)
  | some r => (e, setRow t e.key (some (assigned T e e.vals r)), .ok)

/-- `AddEntity` of the store in memory, after the check for the key (memds:61-75, 400-436). -/
def insertMem (T : List Property) (e : Entity) (t : Table) : Entity × Table × Outcome :=
  match t e.key with
  | some _ => (e, t, .constraint)
  | none => (e, setRow t e.key (some (assigned T e e.vals fun _ => .null)), .ok)

/-- The two stores. -/
inductive Store where
  | sql
  | memory
deriving DecidableEq

/-- What clients do: get an entity by its key, with a selection; set one of its properties; `UpdateEntity`; `NewEntity`, `SetKey`,
setting properties and `InsertEntity`; and deleting by key. -/
inductive Op where
  | read (c : Client) (k : Key) (select : Option (List Name))
  | set (c : Client) (n : Name) (v : Val)
  | update (c : Client) (fails : Bool)
  | insert (c : Client) (k : Key) (vals : List (Name × Val))
  | delete (k : Key)

/-- What clients see. -/
inductive Obs where
  | read (c : Client) (k : Key)
  | absent (c : Client) (k : Key)
  | wrote (c : Client) (k : Key)
  | failed (c : Client) (k : Key) (o : Outcome)
  | inserted (c : Client) (k : Key)
  | refused (c : Client) (k : Key) (o : Outcome)
  | deleted (k : Key)
deriving DecidableEq

/-- What is stored, and what the clients hold. -/
structure World where
  table : Table
  hold : Client → Option Entity

/-- A client gets hold of an entity. -/
def setHold (h : Client → Option Entity) (c : Client) (e : Entity) : Client → Option Entity := fun d => if d = c then some e else h d

/-- The value of a property in an entity that was read (sqlds:496-525, csdl:2150-2167): NULL if it is not selected. -/
def picked (select : Option (List Name)) (r : Row) : Name → Val :=
  fun n => match select with
    | none => r n
    | some l => if l.contains n then r n else .null

/-- One method of a client (sqlds:500-528, 1234-1329, 1331-1485, 1610-1645).  A new entity that cannot be inserted is thrown away. -/
def step (S : Store) (sha : Text → List Nat) (T : List Property) (w : World) : Op → World × List Obs
  | .read c k select =>
    match w.table k with
    | none => (w, [.absent c k])
    | some r => ({ w with hold := setHold w.hold c ⟨k, select, picked select r⟩ }, [.read c k])
  | .set c n v =>
    match w.hold c with
    | none => (w, [])
    | some e => ({ w with hold := setHold w.hold c { e with vals := setVal e.vals n v } }, [])
  | .update c fails =>
    match w.hold c with
    | none => (w, [])
    | some e =>
      match S with
      | .sql =>
        match updateSQL sha T fails e w.table with
        | (e', t, .ok) => (⟨t, setHold w.hold c e'⟩, [.wrote c e.key])
        | (e', t, o) => (⟨t, setHold w.hold c e'⟩, [.failed c e.key o])
      | .memory =>
        match updateMem T e w.table with
        | (e', t, .ok) => (⟨t, setHold w.hold c e'⟩, [.wrote c e.key])
        | (e', t, o) => (⟨t, setHold w.hold c e'⟩, [.failed c e.key o])
  | .insert c k vals =>
    let e : Entity := ⟨k, none, vals.foldl (fun f x => setVal f x.1 x.2) fun _ => .null⟩
    match (match S with | .sql => insertSQL sha T e w.table | .memory => insertMem T e w.table) with
    | (e', t, .ok) => (⟨t, setHold w.hold c e'⟩, [.inserted c k])
    | (_, t, o) => ({ w with table := t }, [.refused c k o])
  | .delete k =>
    match w.table k with
    | none => (w, [])
    | some _ => ({ w with table := setRow w.table k none }, [.deleted k])

/-- A history: the world it ends in, and what has been seen, the latest first. -/
def run (S : Store) (sha : Text → List Nat) (T : List Property) (w : World) (ops : List Op) : World × List Obs :=
  ops.foldl (fun s op => let r := step S sha T s.1 op; (r.1, r.2 ++ s.2)) (w, [])

end Verif.OData.Tokens
