import Verif.Model.MemLinks

/-!
# What the links of a container should be like

Only what can be seen through the interface is used: which entities exist and which entities a navigation property lists.
-/

namespace Verif.Spec.MemLinks

open Verif.MemLinks

variable {K : Type} [DecidableEq K]

/-- A container that can be loaded: each end belongs to its entity set, ends come in pairs, an index exists if there is a
navigation property, and there is at most one unbound principal (otherwise loading fails). -/
structure EnvOk (env : Env K) : Prop where
  ord : ∀ l, (env.ord l).Perm l
  near : ∀ s e, e ∈ env.links s → (env.near e).set = s
  pair : ∀ s e, e ∈ env.links s → e.other ∈ env.links (env.far e).set
  first : ∀ a, (env.assoc a).toEnd.nav = true → (env.assoc a).fromEnd.nav = true
  unbound : ∀ s e e', e ∈ env.links s → e' ∈ env.links s → (env.near e).nav = false → (env.near e').nav = false →
    (env.far e).mult = .one → (env.far e').mult = .one → e = e'

/-- The entity with key `k` at an end is linked to the entity with key `j` at the other end. -/
def Linked (env : Env K) (st : St K) (e : EndId) (k j : K) : Prop := j ∈ getLinks env st e k

/-- Navigation in both directions agrees. -/
def BothWays (env : Env K) (st : St K) : Prop := ∀ e k j, Linked env st e k j ↔ Linked env st e.other j k

/-- Links are between entities that exist. -/
def NoDangling (env : Env K) (st : St K) : Prop :=
  ∀ e k j, Linked env st e k j → ((env.near e).set, k) ∈ st.data ∧ ((env.far e).set, j) ∈ st.data

/-- An entity of the other end is linked to at most one entity of this end. -/
def AtMostOne (env : Env K) (st : St K) (e : EndId) : Prop := ∀ j, (getLinks env st e.other j).length ≤ 1

/-- Every entity has the links it is required to have. -/
def RequiredKept (env : Env K) (st : St K) : Prop :=
  ∀ s k, (s, k) ∈ st.data → ∀ e ∈ env.links s, (env.far e).mult = .one →
    ∃ j, Linked env st e k j ∧ ((env.far e).set, j) ∈ st.data

/-- `y` requires a link to `x`, and has it. -/
def Needs (env : Env K) (st : St K) (x y : Nat × K) : Prop :=
  ∃ e ∈ env.links x.1, (env.near e).mult = .one ∧ y.1 = (env.far e).set ∧ Linked env st e x.2 y.2

/-- `y` is `x`, or requires `x`, or requires something that requires `x`, and so on. -/
inductive Dependent (env : Env K) (st : St K) (x : Nat × K) : Nat × K → Prop where
  | self : Dependent env st x x
  | step {y z} : Dependent env st x y → Needs env st y z → Dependent env st x z

mutual
/-- What is bound at an end is not the entity object of an entity that does not exist. -/
def FreshBind (env : Env K) (data : List (Nat × K)) (e : EndId) : Bind K → Prop
  | .key _ => True
  | .old j => ((env.far e).set, j) ∈ data
  | .new _ bs => FreshBinds env data bs
/-- Bindings that refer by entity objects only to entities that exist. -/
def FreshBinds (env : Env K) (data : List (Nat × K)) : Binds K → Prop
  | .nil => True
  | .cons e b rest => FreshBind env data e b ∧ FreshBinds env data rest
end

/-- An operation that uses only entity objects of entities that exist. -/
def Fresh (env : Env K) (st : St K) : Op K → Prop
  | .insert _ _ bs => FreshBinds env st.data bs
  | .update _ _ bs => FreshBinds env st.data bs
  | .delete _ _ => True
  | .link e k _ => ((env.near e).set, k) ∈ st.data
  | .unlink e k _ => ((env.near e).set, k) ∈ st.data
  | .replace e k j => ((env.near e).set, k) ∈ st.data ∧ ((env.far e).set, j) ∈ st.data
  | .navInsert e k _ bs => ((env.near e).set, k) ∈ st.data ∧ FreshBinds env st.data bs

/-- A history of such operations. -/
def FreshAll (env : Env K) : St K → List (Op K) → Prop
  | _, [] => True
  | st, op :: ops => Fresh env st op ∧ FreshAll env (run env st op).1 ops

/-- A history of operations each of which succeeds, or fails without an effect. -/
def Clean (env : Env K) : St K → List (Op K) → Prop
  | _, [] => True
  | st, op :: ops => ((run env st op).2 = none ∨ (run env st op).1 = st) ∧ Clean env (run env st op).1 ops

/-- No association of an entity set with itself requires an entity at its second end. -/
def NoSelfRequired (env : Env K) : Prop :=
  ∀ a, (env.assoc a).fromEnd.set = (env.assoc a).toEnd.set → (env.assoc a).toEnd.mult ≠ .one

end Verif.Spec.MemLinks
