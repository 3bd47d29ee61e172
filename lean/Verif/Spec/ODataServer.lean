import Verif.Model.ODataServer
import Verif.Spec.ODataUri

/-!
# What an OData service does

Independent of how requests are handled: which resource a path leads to, where it breaks off and with which error, which
options go with which resource, and which methods.
-/

namespace Verif.Spec.OData

open Verif Verif.OData Verif.OData.Server

variable {S E C F : Type}

/-! ## Keys -/

/-- A segment without keys: without brackets, or with nothing between them. -/
def NoKeys (k : Keys) : Prop := k = none ∨ k = some []

/-- The keys that are given in a segment name the values of the key properties of an entity set: each under its name, and the
only one also without a name. -/
def KeyValues (names : List Str) (d : List (Str × Lit)) (key : List Lit) : Prop :=
  key.length = names.length ∧
  ∀ (i : Nat) (n : Str) (v : Lit), names[i]? = some n → key[i]? = some v →
    Dict.get d n = some v ∨ (names.length = 1 ∧ Dict.get d n = none ∧ Dict.get d [] = some v)

/-- The keys of a segment pick an entity of a collection. -/
def Picks (P : Provider S E C F) (s : S) (c : C) (k : Keys) (e : E) : Prop :=
  ∃ d key, k = some d ∧ d ≠ [] ∧ KeyValues (P.keyNames c) d key ∧ P.lookup s c key = some e

/-- The keys of a segment pick nothing: some are given, and no values of the key properties that they name are those of an
entity. -/
def PicksNone (P : Provider S E C F) (s : S) (c : C) (k : Keys) : Prop := ¬ NoKeys k ∧ ¬ ∃ e, Picks P s c k e

/-! ## Paths -/

/-- Where a segment leads from a resource.  The second resource comes with the entity whose property was last followed. -/
inductive Step (P : Provider S E C F) (s : S) : Resource E C F × Option E → Str × Keys → Resource E C F × Option E → Prop
  /-- a data property of an entity -/
  | value {e : E} {p : Option E} {n : Str} {k : Keys} {v : Value} :
    P.property s e n = some (.value v) → Step P s (.entity e, p) (n, k) (.value [n] v, some e)
  /-- the entities that a navigation property leads to -/
  | many {e : E} {p : Option E} {n : Str} {k : Keys} {c : C} :
    P.property s e n = some (.many c) → NoKeys k → Step P s (.entity e, p) (n, k) (.collection c, some e)
  /-- one of them, by its key -/
  | member {e e' : E} {p : Option E} {n : Str} {k : Keys} {c : C} :
    P.property s e n = some (.many c) → Picks P s c k e' → Step P s (.entity e, p) (n, k) (.entity e', some e)
  /-- the only entity that a navigation property leads to -/
  | one {e e' : E} {p : Option E} {n : Str} {k : Keys} {c : C} :
    P.property s e n = some (.one c) → NoKeys k → P.members s c = [e'] → Step P s (.entity e, p) (n, k) (.entity e', some e)
  /-- no entity, if there is none -/
  | none {e : E} {p : Option E} {n : Str} {k : Keys} {c : C} :
    P.property s e n = some (.one c) → NoKeys k → P.members s c = [] → Step P s (.entity e, p) (n, k) (.nothing, some e)
  /-- a property of a complex value -/
  | field {p : Option E} {path : List Str} {b : Option Bool} {fields : List (Str × Value)} {n : Str} {k : Keys} {v : Value} :
    Dict.get fields n = some v → Step P s (.value path (.complex b fields), p) (n, k) (.value (path ++ [n]) v, p)

/-- Where the segments of a path lead. -/
inductive Leads (P : Provider S E C F) (s : S) : List (Str × Keys) → Resource E C F × Option E → Prop
  /-- the name of an entity set -/
  | set {n : Str} {k : Keys} {c : C} : P.search n = some (.set c) → NoKeys k → Leads P s [(n, k)] (.collection c, none)
  /-- the name of an entity set with the keys of one of its entities -/
  | entity {n : Str} {k : Keys} {c : C} {e : E} : P.search n = some (.set c) → Picks P s c k e → Leads P s [(n, k)] (.entity e, none)
  /-- a longer path -/
  | step {segs : List (Str × Keys)} {seg : Str × Keys} {r r' : Resource E C F × Option E} :
    Leads P s segs r → Step P s r seg r' → Leads P s (segs ++ [seg]) r'

/-- Why a segment leads nowhere from a resource. -/
inductive Stops (P : Provider S E C F) (s : S) : Resource E C F × Option E → Str × Keys → Raise → Prop
  /-- nothing comes after a collection -/
  | collection {c : C} {p : Option E} {seg : Str × Keys} : Stops P s (.collection c, p) seg .bad
  /-- or after a simple value -/
  | simple {path : List Str} {a : Bool} {b : Option Bool} {p : Option E} {seg : Str × Keys} :
    Stops P s (.value path (.simple a b), p) seg .bad
  /-- a single entity is not picked by keys -/
  | keys {e : E} {p : Option E} {n : Str} {k : Keys} {c : C} :
    P.property s e n = some (.one c) → ¬ NoKeys k → Stops P s (.entity e, p) (n, k) .bad
  /-- there is no such property -/
  | property {e : E} {p : Option E} {n : Str} {k : Keys} :
    P.property s e n = none → Stops P s (.entity e, p) (n, k) .missing
  /-- nor such a part of a complex value -/
  | field {p : Option E} {path : List Str} {b : Option Bool} {fields : List (Str × Value)} {n : Str} {k : Keys} :
    Dict.get fields n = none → Stops P s (.value path (.complex b fields), p) (n, k) .missing
  /-- there is no entity with these keys -/
  | member {e : E} {p : Option E} {n : Str} {k : Keys} {c : C} :
    P.property s e n = some (.many c) → PicksNone P s c k → Stops P s (.entity e, p) (n, k) .missing
  /-- nothing comes after no entity -/
  | nothing {p : Option E} {seg : Str × Keys} : Stops P s (.nothing, p) seg .missing
  /-- there are several entities where there must be at most one -/
  | several {e e1 e2 : E} {es : List E} {p : Option E} {n : Str} {k : Keys} {c : C} :
    P.property s e n = some (.one c) → NoKeys k → P.members s c = e1 :: e2 :: es → Stops P s (.entity e, p) (n, k) .navigation

/-- Why a path leads nowhere. -/
inductive Breaks (P : Provider S E C F) (s : S) : List (Str × Keys) → Raise → Prop
  /-- there is nothing of that name -/
  | name {n : Str} {k : Keys} {segs : List (Str × Keys)} : P.search n = none ∨ P.search n = some .other →
    Breaks P s ((n, k) :: segs) .missing
  /-- there is no entity with these keys -/
  | key {n : Str} {k : Keys} {c : C} {segs : List (Str × Keys)} : P.search n = some (.set c) → PicksNone P s c k →
    Breaks P s ((n, k) :: segs) .missing
  /-- it leads to a resource from which it does not go on -/
  | stop {before after : List (Str × Keys)} {seg : Str × Keys} {r : Resource E C F × Option E} {f : Raise} :
    Leads P s before r → Stops P s r seg f → Breaks P s (before ++ seg :: after) f

/-- A path that begins with the name of a function. -/
def Calls (P : Provider S E C F) : List (Str × Keys) → Prop
  | (n, _) :: _ => ∃ run, P.search n = some (.function run)
  | [] => False

/-! ## Options -/

/-- The system query options OData allows for a resource, `links` and `raw` telling whether the path option is `$links` or
`$value`. -/
def ResourceAllows (option : Option PathOpt) : Resource E C F → SysOpt → Prop
  | .collection _, _ => True
  | .entity _, o =>
    match option with
    | some .links => True
    | some .value => o = .format
    | _ => o ∈ [.expand, .filter, .format, .select]
  | .value _ (.complex _ _), o => o = .filter ∨ o = .format
  | .value _ (.simple _ _), o => o = .format
  | _, _ => True

/-! ## Answers -/

/-- The status of a reply, if it is a response. -/
def statusOf : Reply E C F → Option Nat
  | .response r => some r.status
  | _ => none

/-- An `Accept` header that the server can read, or none. -/
def Readable (U : UriTables) (accept : Option Str) : Prop :=
  ∀ a, accept = some a → ∃ r, Http.acceptFromString U.quality a = some r ∧ r ≠ .error .valueError ∧ r ≠ .error .typeError

/-- An operation of the store that leaves it as it was whenever it raises an exception. -/
def Atomic {α : Type} (op : S → Except Raise α × S) : Prop := ∀ s e s', op s = (.error e, s') → s' = s

/-- A store all of whose operations do so. -/
structure AtomicStore (P : Provider S E C F) : Prop where
  function : ∀ n run, P.search n = some (.function run) → Atomic run
  insert : ∀ c env, Atomic (P.insert c env)
  insertMedia : ∀ c slug, Atomic (P.insertMedia c slug)
  setStream : ∀ e m b, Atomic (P.setStream e m b)
  update : ∀ e env, Atomic (P.update e env)
  delete : ∀ e, Atomic (P.delete e)
  setValue : ∀ e p b env, Atomic (P.setValue e p b env)
  nullValue : ∀ e p, Atomic (P.nullValue e p)
  link : ∀ c env, Atomic (P.link c env)
  replace : ∀ c env, Atomic (P.replace c env)
  unlink : ∀ c e, Atomic (P.unlink c e)

/-- An operation of the store that raises only exceptions of a kind. -/
def Raises (ok : Raise → Prop) {α : Type} (op : S → Except Raise α × S) : Prop := ∀ s e s', op s = (.error e, s') → ok e

/-- A store all of whose operations do so. -/
structure WritesRaise (ok : Raise → Prop) (P : Provider S E C F) : Prop where
  insert : ∀ c env, Raises ok (P.insert c env)
  insertMedia : ∀ c slug, Raises ok (P.insertMedia c slug)
  setStream : ∀ e m b, Raises ok (P.setStream e m b)
  update : ∀ e env, Raises ok (P.update e env)
  delete : ∀ e, Raises ok (P.delete e)
  setValue : ∀ e p b env, Raises ok (P.setValue e p b env)
  nullValue : ∀ e p, Raises ok (P.nullValue e p)
  link : ∀ c env, Raises ok (P.link c env)
  replace : ∀ c env, Raises ok (P.replace c env)
  unlink : ∀ c e, Raises ok (P.unlink c e)

/-- A store that raises only such exceptions when it is read. -/
structure ReadsRaise (ok : Raise → Prop) (P : Provider S E C F) : Prop where
  function : ∀ n run, P.search n = some (.function run) → Raises ok run
  streamType : ∀ s e f, P.streamType s e = .error f → ok f
  expand : ∀ s x f, P.expand s x = .error f → f = .valueError ∨ ok f
  render : ∀ s x m f, P.render s x m = .error f → ok f

/-- The exceptions that are the fault of the request. -/
def ClientFault (f : Raise) : Prop := f ≠ .other ∧ f ≠ .endless

end Verif.Spec.OData
