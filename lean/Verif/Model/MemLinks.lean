/-!
# Model of links between entities: pyslet/pyslet/odata2/memds.py and the parts of csdl.py it uses

Entity sets and association sets are numbered.  An entity is known by its set and key; its properties are the subject of
`Model/MemStore`.  `K` is the type of keys.

Every operation gives a new state also when it fails, because nothing is undone after an exception.
-/

namespace Verif.MemLinks

/-- `Multiplicity` (pyslet/pyslet/odata2/csdl.py:3551-3566): how many entities of an end there may be for an entity of the
other end. -/
inductive Mult where
  | zeroOne
  | one
  | many
  deriving DecidableEq, Repr

/-- `AssociationSetEnd` (pyslet/pyslet/odata2/csdl.py:4030-4120): an entity set, the multiplicity of the association's end,
and whether the entity type has a navigation property for it. -/
structure End where
  set : Nat
  mult : Mult
  nav : Bool
  deriving DecidableEq, Repr

/-- An association set with its index: `InMemoryAssociationIndex.__init__` (pyslet/pyslet/odata2/memds.py:244-254).  The
index is created for the first navigation property found (memds.py:630-647), whose end is `fromEnd`; an association without
a navigation property has no index. -/
structure Assoc where
  fromEnd : End
  toEnd : End
  deriving DecidableEq, Repr

/-- Whether the association has an index (pyslet/pyslet/odata2/memds.py:634-647). -/
def Assoc.indexed (x : Assoc) : Bool := x.fromEnd.nav

/-- An end of an association: the number of the association, and whether it is the end `toEnd`. -/
abbrev EndId := Nat × Bool

/-- The model of a container: `EntitySet.linkEnds` of every entity set (pyslet/pyslet/odata2/csdl.py:3776-3797), in the
order in which the dictionary lists them, and the order in which a set of keys is listed. -/
structure Env (K : Type) where
  assoc : Nat → Assoc
  links : Nat → List EndId
  ord : List K → List K

variable {K : Type} [DecidableEq K]

/-- The end itself. -/
def Env.near (env : Env K) (e : EndId) : End := if e.2 then (env.assoc e.1).toEnd else (env.assoc e.1).fromEnd

/-- The other end: `otherEnd` (pyslet/pyslet/odata2/csdl.py:4045). -/
def Env.far (env : Env K) (e : EndId) : End := if e.2 then (env.assoc e.1).fromEnd else (env.assoc e.1).toEnd

/-- The end on the other side. -/
def EndId.other (e : EndId) : EndId := (e.1, !e.2)

/-- Whether `e` is an end for which its entity set has a navigation property: `entitySet.navigation`
(pyslet/pyslet/odata2/csdl.py:3790-3791). -/
def Env.isNav (env : Env K) (e : EndId) : Bool := (env.links (env.near e).set).contains e && (env.near e).nav

/-- The state of a container: which entities exist (`InMemoryEntityStore.data`), which are being deleted (`_deleting`), and
the two dictionaries of each index (pyslet/pyslet/odata2/memds.py:32-42, 244-254).  A dictionary of sets is kept as its list
of pairs; a key with an empty set and an absent key have the same effects. -/
structure St (K : Type) where
  data : List (Nat × K)
  deleting : List (Nat × K)
  fwd : Nat → List (K × K)
  rev : Nat → List (K × K)

/-- An exception. -/
inductive LErr where
  | key
  | constraint
  | navConstraint
  | attribute
  | fuel
  deriving DecidableEq, Repr

/-- The outcome of an operation. -/
abbrev Res (K : Type) := St K × Option LErr

/-- Continue unless an exception was raised. -/
def Res.andThen (r : Res K) (f : St K → Res K) : Res K :=
  match r.2 with
  | none => f r.1
  | some x => (r.1, some x)

/-- The second parts of the pairs with a given first part. -/
def look (ps : List (K × K)) (k : K) : List K := (ps.filter fun p => decide (p.1 = k)).map (·.2)

/-- `set.add` (pyslet/pyslet/odata2/memds.py:275-276). -/
def addPair (ps : List (K × K)) (p : K × K) : List (K × K) := if p ∈ ps then ps else ps ++ [p]

/-- `set.discard` (pyslet/pyslet/odata2/memds.py:291-292). -/
def dropPair (ps : List (K × K)) (p : K × K) : List (K × K) := ps.filter fun q => !decide (q = p)

/-- Change the list of one association. -/
def put (f : Nat → List (K × K)) (a : Nat) (ps : List (K × K)) : Nat → List (K × K) := fun b => if b = a then ps else f b

/-- `AddLink` (pyslet/pyslet/odata2/memds.py:272-276). -/
def addLink (st : St K) (a : Nat) (f t : K) : St K :=
  { st with fwd := put st.fwd a (addPair (st.fwd a) (f, t)), rev := put st.rev a (addPair (st.rev a) (t, f)) }

/-- `RemoveLink` (pyslet/pyslet/odata2/memds.py:288-292). -/
def removeLink (st : St K) (a : Nat) (f t : K) : St K :=
  { st with fwd := put st.fwd a (dropPair (st.fwd a) (f, t)), rev := put st.rev a (dropPair (st.rev a) (t, f)) }

/-- `GetLinksFrom` and `GetLinksTo` (pyslet/pyslet/odata2/memds.py:278-286): `lookupMethod` of a navigation collection of the
end (memds.py:496-501). -/
def getLinks (env : Env K) (st : St K) (e : EndId) (k : K) : List K :=
  env.ord (look (if e.2 then st.rev e.1 else st.fwd e.1) k)

/-- `AddLink` from the side of an end (pyslet/pyslet/odata2/memds.py:570-573). -/
def addAt (st : St K) (e : EndId) (k j : K) : St K := if e.2 then addLink st e.1 j k else addLink st e.1 k j

/-- `RemoveLink` from the side of an end (pyslet/pyslet/odata2/memds.py:584-587). -/
def removeAt (st : St K) (e : EndId) (k j : K) : St K := if e.2 then removeLink st e.1 j k else removeLink st e.1 k j

/-- The loop of `DeleteHook` (pyslet/pyslet/odata2/memds.py:298-302) and `ReverseDeleteHook` (311-315) over the keys linked
to: the pairs left, and whether it came to the end; an absent element is a `KeyError`, which ends the loop. -/
def hookLoop (k : K) : List K → List (K × K) → List (K × K) × Bool
  | [], ps => (ps, true)
  | j :: js, ps => if (j, k) ∈ ps then hookLoop k js (dropPair ps (j, k)) else (ps, false)

/-- `DeleteHook` (pyslet/pyslet/odata2/memds.py:294-305), and `ReverseDeleteHook` (307-318) with the dictionaries swapped:
`ps` is the dictionary with the entity's own keys, `qs` the opposite one. -/
def hook (env : Env K) (ps qs : List (K × K)) (k : K) : List (K × K) × List (K × K) :=
  let r := hookLoop k (env.ord (look ps k)) qs
  (if r.2 then ps.filter (fun p => !decide (p.1 = k)) else ps, r.1)

/-- One hook of `InMemoryEntityStore.DeleteEntity` (pyslet/pyslet/odata2/memds.py:203-206). -/
def hookEnd (env : Env K) (k : K) (st : St K) (e : EndId) : St K :=
  if (env.assoc e.1).indexed then
    if e.2 then
      let r := hook env (st.rev e.1) (st.fwd e.1) k
      { st with rev := put st.rev e.1 r.1, fwd := put st.fwd e.1 r.2 }
    else
      let r := hook env (st.fwd e.1) (st.rev e.1) k
      { st with fwd := put st.fwd e.1 r.1, rev := put st.rev e.1 r.2 }
  else st

/-- `InMemoryEntityStore.DeleteEntity` (pyslet/pyslet/odata2/memds.py:201-209): the associations from the entity set first,
then those to it. -/
def deleteEntity (env : Env K) (s : Nat) (k : K) (st : St K) : Res K :=
  let st := ((env.links s).filter (fun e => !e.2)).foldl (hookEnd env k) st
  let st := ((env.links s).filter (fun e => e.2)).foldl (hookEnd env k) st
  if (s, k) ∈ st.data then ({ st with data := st.data.filter fun x => !decide (x = (s, k)) }, none)
  else (st, some .key)

/-- The loop over the entities of the other end (pyslet/pyslet/odata2/memds.py:468-477 and 481-485): `d` is the end whose
index is used, `o` the entity set deleted from, `nav` whether the end has a navigation property. -/
def delKeys (del : St K → Nat → K → Res K) (d : EndId) (o : Nat) (nav : Bool) (k : K) : List K → St K → Res K
  | [], st => (st, none)
  | j :: js, st =>
    if nav = false ∧ (o, j) ∉ st.deleting then (st, some .navConstraint)
    else (del (removeAt st d k j) o j).andThen (delKeys del d o nav k js)

/-- The loop of `EntityCollection.__delitem__` over the ends (pyslet/pyslet/odata2/memds.py:454-485).  `associations` is
looked at first, so that in an association of an entity set with itself both ends follow the links from the entity. -/
def delEnds (env : Env K) (del : St K → Nat → K → Res K) (s : Nat) (k : K) : List EndId → St K → Res K
  | [], st => (st, none)
  | e :: es, st =>
    let x := env.assoc e.1
    (if (env.near e).mult = .one then
      if x.indexed then
        if x.fromEnd.set = s then delKeys del (e.1, false) x.toEnd.set (env.near e).nav k (getLinks env st (e.1, false) k) st
        else delKeys del (e.1, true) x.fromEnd.set (env.near e).nav k (getLinks env st (e.1, true) k) st
      else (st, some .attribute)
    else (st, none)).andThen (delEnds env del s k es)

/-- `EntityCollection.__delitem__` (pyslet/pyslet/odata2/memds.py:446-488); the first argument bounds the depth of the
recursion. -/
def del (env : Env K) : Nat → St K → Nat → K → Res K
  | 0, st, _, _ => (st, some .fuel)
  | n + 1, st, s, k =>
    if (s, k) ∈ st.deleting then (st, none)
    else if (s, k) ∉ st.data then (st, some .key)
    else
      let r := (delEnds env (del env n) s k (env.links s) { st with deleting := (s, k) :: st.deleting }).andThen (deleteEntity env s k)
      ({ r.1 with deleting := r.1.deleting.filter fun x => !decide (x = (s, k)) }, r.2)

/-- Deletion with enough depth: every entity is deleted at most once (`delete_depth`). -/
def delete (env : Env K) (st : St K) (s : Nat) (k : K) : Res K := del env (st.data.length + 2) st s k

/-- `NavigationCollection.__setitem__` (pyslet/pyslet/odata2/memds.py:554-573), given an entity object of the target set
with this key; the check of csdl.py:2698-2704 is that the target exists. -/
def link (env : Env K) (st : St K) (e : EndId) (k j : K) : Res K :=
  if j ∈ getLinks env st e k then (st, none)
  else if ((env.far e).set, j) ∉ st.data then (st, some .key)
  else if (env.far e).mult ≠ .many ∧ getLinks env st e k ≠ [] then (st, some .navConstraint)
  else if (env.near e).mult ≠ .many ∧ getLinks env st e.other j ≠ [] then (st, some .navConstraint)
  else (addAt st e k j, none)

/-- `NavigationCollection.__delitem__` (pyslet/pyslet/odata2/memds.py:575-587). -/
def unlink (env : Env K) (st : St K) (e : EndId) (k j : K) : Res K :=
  if (env.near e).mult = .one ∨ (env.far e).mult = .one then (st, some .navConstraint)
  else if j ∉ getLinks env st e k then (st, some .key)
  else (removeAt st e k j, none)

/-- `NavigationCollection.Replace` (pyslet/pyslet/odata2/memds.py:589-617). -/
def replace (env : Env K) (st : St K) (e : EndId) (k j : K) : Res K :=
  let old := getLinks env st e k
  if old = [j] then (st, none)
  else if (env.near e).mult = .one then
    if old ≠ [] then (st, some .navConstraint) else link env st e k j
  else
    ((old.filter fun i => !decide (i = j)).foldl (fun st i => removeAt st e k i) (if j ∈ old then st else addAt st e k j), none)

mutual
/-- What is bound to a navigation property by `BindEntity` (pyslet/pyslet/odata2/csdl.py:1792-1814): a key, an entity object
that exists (or did), or a new entity with bindings of its own.  A new entity object is bound only once. -/
inductive Bind (K : Type) where
  | key (k : K)
  | old (k : K)
  | new (k : K) (bs : Binds K)
/-- The bindings of an entity.  The code handles one navigation property after the other; here the order is arbitrary. -/
inductive Binds (K : Type) where
  | nil
  | cons (e : EndId) (b : Bind K) (rest : Binds K)
end

/-- Whether a navigation property is bound. -/
def Binds.has : Binds K → EndId → Bool
  | .nil, _ => false
  | .cons e' _ rest, e => decide (e' = e) || rest.has e

/-- `unboundPrincipal` (pyslet/pyslet/odata2/csdl.py:3792-3796). -/
def unboundPrincipal (env : Env K) (s : Nat) : Option EndId :=
  (env.links s).find? fun e => !(env.near e).nav && decide ((env.far e).mult = .one)

/-- `CheckNavigationConstraints` (pyslet/pyslet/odata2/csdl.py:2015-2037, 1816-1825): whether there is a violation, ignoring
the association end given. -/
def violates (env : Env K) (s : Nat) (bs : Binds K) (ignore : Option EndId) : Bool :=
  (match unboundPrincipal env s with
    | some e => !decide (some e = ignore)
    | none => false) ||
  (env.links s).any fun e => (env.near e).nav && decide ((env.far e).mult = .one) && !decide (some e = ignore) && !bs.has e

/-- Use of an existing entity in `UpdateBindings` (pyslet/pyslet/odata2/csdl.py:1846-1852). -/
def bindOld (env : Env K) (st : St K) (e : EndId) (k j : K) : Res K :=
  if (env.far e).mult = .many then link env st e k j else replace env st e k j

/-- The start of `EntityCollection.InsertEntity` (pyslet/pyslet/odata2/memds.py:405-412), the entity object not claiming to
exist. -/
def addNew (env : Env K) (st : St K) (s : Nat) (k : K) (bs : Binds K) (ignore : Option EndId) : Res K :=
  if (s, k) ∈ st.data then (st, some .constraint)
  else if violates env s bs ignore then (st, some .navConstraint)
  else ({ st with data := st.data ++ [(s, k)] }, none)

mutual
/-- One round of `DeferredValue.UpdateBindings` (pyslet/pyslet/odata2/csdl.py:1837-1857) for the entity with key `k`. -/
def bind (env : Env K) (st : St K) (e : EndId) (k : K) : Bind K → Res K
  | .key j => if ((env.far e).set, j) ∈ st.data then bindOld env st e k j else (st, some .key)
  | .old j => bindOld env st e k j
  | .new j bs =>
    -- `NavigationCollection.InsertEntity` (pyslet/pyslet/odata2/memds.py:514-519)
    ((addNew env st (env.far e).set j bs (some e.other)).andThen fun st => binds env st (env.far e).set j bs).andThen
      fun st => link env st e k j
/-- `EntityCollection.UpdateBindings` (pyslet/pyslet/odata2/csdl.py:2675-2684). -/
def binds (env : Env K) (st : St K) (s : Nat) (k : K) : Binds K → Res K
  | .nil => (st, none)
  | .cons e b rest =>
    if (env.near e).set = s ∧ env.isNav e = true then (bind env st e k b).andThen fun st => binds env st s k rest
    else (st, some .key)
end

/-- `EntityCollection.InsertEntity` (pyslet/pyslet/odata2/memds.py:389-413) of an entity with a key. -/
def insert (env : Env K) (st : St K) (s : Nat) (k : K) (bs : Binds K) (ignore : Option EndId) : Res K :=
  (addNew env st s k bs ignore).andThen fun st => binds env st s k bs

/-- `EntityCollection.UpdateEntity` (pyslet/pyslet/odata2/memds.py:438-444). -/
def update (env : Env K) (st : St K) (s : Nat) (k : K) (bs : Binds K) : Res K :=
  if (s, k) ∈ st.data then binds env st s k bs else (st, some .key)

/-- An operation.  Navigation starts from an entity object, which may be of an entity that was deleted meanwhile. -/
inductive Op (K : Type) where
  | insert (s : Nat) (k : K) (bs : Binds K)
  | update (s : Nat) (k : K) (bs : Binds K)
  | delete (s : Nat) (k : K)
  | link (e : EndId) (k j : K)
  | unlink (e : EndId) (k j : K)
  | replace (e : EndId) (k j : K)
  | navInsert (e : EndId) (k j : K) (bs : Binds K)

/-- The outcome of an operation. -/
def run (env : Env K) (st : St K) : Op K → Res K
  | .insert s k bs => insert env st s k bs none
  | .update s k bs => update env st s k bs
  | .delete s k => delete env st s k
  | .link e k j => if env.isNav e then link env st e k j else (st, some .key)
  | .unlink e k j => if env.isNav e then unlink env st e k j else (st, some .key)
  | .replace e k j => if env.isNav e then replace env st e k j else (st, some .key)
  | .navInsert e k j bs => if env.isNav e then bind env st e k (.new j bs) else (st, some .key)

/-- What `NavigationCollection.__setitem__` does before it adds the link (pyslet/pyslet/odata2/memds.py:555-568), without
holding the lock of the container: nothing if the link is to be added, otherwise the outcome.  The lookups are one step. -/
def linkCheck (env : Env K) (st : St K) (e : EndId) (k j : K) : Option (Option LErr) :=
  if j ∈ getLinks env st e k then some none
  else if ((env.far e).set, j) ∉ st.data then some (some .key)
  else if (env.far e).mult ≠ .many ∧ getLinks env st e k ≠ [] then some (some .navConstraint)
  else if (env.near e).mult ≠ .many ∧ getLinks env st e.other j ≠ [] then some (some .navConstraint)
  else none

/-- How far a thread has come. -/
inductive Phase where
  | start
  | checked
  | done (r : Option LErr)
deriving DecidableEq

/-- A thread that is to link two entities. -/
structure Th (K : Type) where
  e : EndId
  k : K
  j : K
  phase : Phase

/-- A step of a thread: the checks, then `AddLink`, which holds the lock (pyslet/pyslet/odata2/memds.py:554-573, 271-275). -/
def step (env : Env K) (st : St K) (t : Th K) : St K × Th K :=
  match t.phase with
  | .start =>
    match linkCheck env st t.e t.k t.j with
    | some r => (st, { t with phase := .done r })
    | none => (st, { t with phase := .checked })
  | .checked => (addAt st t.e t.k t.j, { t with phase := .done none })
  | .done _ => (st, t)

/-- Threads taking steps in the order given. -/
def threads (env : Env K) : List Nat → St K → List (Th K) → St K × List (Th K)
  | [], st, ts => (st, ts)
  | i :: is, st, ts =>
    match ts[i]? with
    | some t => threads env is (step env st t).1 (ts.set i (step env st t).2)
    | none => threads env is st ts

/-- The empty container. -/
def empty : St K := { data := [], deleting := [], fwd := fun _ => [], rev := fun _ => [] }

/-- The state after a history of operations, whether they succeed or not. -/
def history (env : Env K) (ops : List (Op K)) : St K := ops.foldl (fun st op => (run env st op).1) empty

end Verif.MemLinks
