import Verif.Model.SqlStore

/-!
# What is asked of changes of a store

Said in terms of what the database holds, for the caller of a method and for somebody who looks after the program has stopped at
some point.
-/

namespace Verif.Spec.Store

open Verif.OData.Store

/-- All or nothing: nothing is left uncommitted; after an exception the database is as before; and whenever the program stops, what
has been committed is the database as before or as after a successful call. -/
structure Atomic (d : DB) (r : Except Exn Unit) (w : World) : Prop where
  settled : w.current = w.committed
  failed : ∀ e, r = .error e → w.committed = d
  crash : ∀ c ∈ w.history, c = d ∨ (r = .ok () ∧ c = w.committed)

/-- A method is all or nothing on a database that can roll back, whatever its constraints are, whatever it holds and whichever of
its statements fail. -/
def AllOrNothing (m : Env → M Unit) : Prop :=
  ∀ env d clock marked, env.rollbacks = true →
    Atomic d (call (m env) (quiet d clock marked)).1 (call (m env) (quiet d clock marked)).2

mutual

/-- Nothing is bound by its key, here or below. -/
def keylessEnt : Ent → Bool
  | .mk _ _ _ _ _ navs => keylessNavs navs

def keylessNavs : Navs → Bool
  | .nil => true
  | .cons _ bs rest => keylessBinds bs && keylessNavs rest

def keylessBinds : Binds → Bool
  | .nil => true
  | .key _ _ => false
  | .ent b rest => keylessEnt b && keylessBinds rest

end

/-- Only existing entities are bound: by their keys, or as they have been read. -/
def onlyOld : Binds → Bool
  | .nil => true
  | .key _ rest => onlyOld rest
  | .ent (.mk _ _ _ _ old _) rest => old && onlyOld rest

/-- Existing entities may be bound by their keys where the entity itself has the foreign key, if all is existing there; nothing
else is bound by its key. -/
def tidy (S : Schema) : Navs → Bool
  | .nil => true
  | .cons e bs rest => (if S.place e = .own ∧ S.nav e then onlyOld bs else keylessBinds bs) && tidy S rest

/-- Only entities that have been read are bound. -/
def onlyRead : Binds → Bool
  | .nil => true
  | .key _ _ => false
  | .ent (.mk _ _ _ _ old _) rest => old && onlyRead rest

/-- The bindings of an update that is all or nothing: keys only where the entity itself has the foreign key; new entities only
where they have it. -/
def tidyUpdate (S : Schema) : Navs → Bool
  | .nil => true
  | .cons e bs rest =>
    (match S.place e with
      | .own => onlyOld bs
      | .other => keylessBinds bs
      | .aux => onlyRead bs) && tidyUpdate S rest

/-- The database holds an entity with its data. -/
def Holds (d : DB) (s : SetId) (k : Key) (data : Nat) : Prop := ∃ r, (s, r) ∈ d.rows ∧ r.key = k ∧ r.data = data

/-- A row of the entity has this foreign key. -/
def HasFk (d : DB) (s : SetId) (k : Key) (e : End) (to : Key) : Prop := ∃ r, (s, r) ∈ d.rows ∧ r.key = k ∧ r.fk e = some to

/-- The database holds the link of two entities, from the one with key `a` through an end to the one with key `b`. -/
def Linked (S : Schema) (d : DB) (e : End) (a b : Key) : Prop :=
  match S.place e with
  | .own => HasFk d (S.set e) a e b
  | .other => HasFk d (S.set (other e)) b (other e) a
  | .aux => link e a b ∈ d.links

/-- Nothing of a database is lost: no entity, no foreign key, no link. -/
structure Grows (d d' : DB) : Prop where
  holds : ∀ s k data, Holds d s k data → Holds d' s k data
  fks : ∀ s k e t, HasFk d s k e t → HasFk d' s k e t
  links : ∀ l ∈ d.links, l ∈ d'.links

mutual

/-- Everything given with a new entity is in the database: the entity, all its links, and all that is new behind them. -/
def StoredEnt (S : Schema) (d : DB) : Ent → Prop
  | .mk set key data _ old navs => old = true ∨ (Holds d set key data ∧ StoredNavs S d key navs)

def StoredNavs (S : Schema) (d : DB) (key : Key) : Navs → Prop
  | .nil => True
  | .cons e bs rest => StoredBinds S d key e bs ∧ StoredNavs S d key rest

def StoredBinds (S : Schema) (d : DB) (key : Key) (e : End) : Binds → Prop
  | .nil => True
  | .key k rest => Linked S d e key k ∧ StoredBinds S d key e rest
  | .ent b rest => Linked S d e key b.key ∧ StoredEnt S d b ∧ StoredBinds S d key e rest

end

/-- The entity set of an entity. -/
def entSet : Ent → SetId
  | .mk set _ _ _ _ _ => set

/-- The ends with bindings. -/
def endsOf : Navs → List End
  | .nil => []
  | .cons e _ rest => e :: endsOf rest

mutual

/-- The bindings fit the model: each navigation property once, entities of the right set, and none at the end through which the
entity itself is bound. -/
def FitsEnt (S : Schema) (from_ : Option End) : Ent → Prop
  | .mk set _ _ _ old navs => old = true ∨ FitsNavs S set from_ navs

def FitsNavs (S : Schema) (set : SetId) (from_ : Option End) : Navs → Prop
  | .nil => True
  | .cons e bs rest =>
    S.set e = set ∧ (bs = .nil ∨ (S.nav e = true ∧ from_ ≠ some e)) ∧ e ∉ endsOf rest ∧ FitsBinds S e bs ∧ FitsNavs S set from_ rest

def FitsBinds (S : Schema) (e : End) : Binds → Prop
  | .nil => True
  | .key _ rest => FitsBinds S e rest
  | .ent b rest => entSet b = S.set (other e) ∧ FitsEnt S (some (other e)) b ∧ FitsBinds S e rest

end

mutual

/-- The objects of the new entities. -/
def oidsEnt : Ent → List Nat
  | .mk _ _ _ oid old navs => if old then [] else oid :: oidsNavs navs

def oidsNavs : Navs → List Nat
  | .nil => []
  | .cons _ bs rest => oidsBinds bs ++ oidsNavs rest

def oidsBinds : Binds → List Nat
  | .nil => []
  | .key _ rest => oidsBinds rest
  | .ent b rest => oidsEnt b ++ oidsBinds rest

end

/-- No link of an association set leads to the entity with a key at an end any more. -/
def Unlinked (S : Schema) (d : DB) (e : End) (key : Key) : Prop :=
  match S.place e with
  | .own => True
  | .other => ∀ x ∈ d.rows, x.1 = S.set (other e) → x.2.fk (other e) ≠ some key
  | .aux => ∀ l ∈ d.links, l.1 = e.1 → linkKey e l ≠ key

/-- Nothing is added to a database: its rows are old ones, perhaps without some of their foreign keys. -/
structure Shrinks (d d' : DB) : Prop where
  rows : ∀ s r', (s, r') ∈ d'.rows → ∃ r, (s, r) ∈ d.rows ∧ r.key = r'.key ∧ r.data = r'.data ∧
    ∀ e t, r'.fk e = some t → r.fk e = some t
  links : ∀ l ∈ d'.links, l ∈ d.links

/-- `Hangs S d set key s k`: the entity `s`, `k` is the entity `set`, `key` or depends on it: it is linked to one that does through
an end that must not be without its entity. -/
inductive Hangs (S : Schema) (d : DB) (set : SetId) (key : Key) : SetId → Key → Prop where
  | self : Hangs S d set key set key
  | next {s k e k'} : Hangs S d set key s k → e ∈ S.ends s → S.mult e = .one → Linked S d e k k' →
      Hangs S d set key (S.set (other e)) k'

/-- Nothing is lost but for some entities: all others are kept with their data, with the foreign keys that do not refer to one of
those, and with the links to others. -/
structure Spares (S : Schema) (P : SetId → Key → Prop) (d d' : DB) : Prop where
  rows : ∀ s r, (s, r) ∈ d.rows → ¬ P s r.key → ∃ r', (s, r') ∈ d'.rows ∧ r'.key = r.key ∧ r'.data = r.data ∧
    ∀ e t, r.fk e = some t → r'.fk e = some t ∨ P (S.set (other e)) t
  links : ∀ l ∈ d.links, l ∈ d'.links ∨ P (S.set (l.1, false)) l.2.1 ∨ P (S.set (l.1, true)) l.2.2

/-- What is bound where the entity itself has the foreign key are existing entities. -/
def readOwn (S : Schema) (w : World) : Navs → Bool
  | .nil => true
  | .cons e bs rest =>
    (!decide (S.place e = .own ∧ S.nav e) || (match bs with | .ent b _ => b.existing w | _ => true)) && readOwn S w rest

/-- An exception of the database driver itself. -/
def Raw (e : Exn) : Prop := e = .integrity ∨ e = .database

end Verif.Spec.Store
