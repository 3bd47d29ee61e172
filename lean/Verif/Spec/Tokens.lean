import Verif.Model.Tokens

/-!
# What concurrency tokens are for

Histories of what clients see, the latest first.
-/

namespace Verif.OData.Tokens

/-- The client sees the entity as it is stored: it reads it, inserts it, or has just written it. -/
def Sees (c : Client) (k : Key) (o : Obs) : Prop := o = .read c k ∨ o = .wrote c k ∨ o = .inserted c k

/-- What is stored under the key changes. -/
def Changes (k : Key) (o : Obs) : Prop := (∃ d, o = .wrote d k) ∨ (∃ d, o = .inserted d k) ∨ o = .deleted k

/-- Nothing has changed since the client saw the entity. -/
def UpToDate (c : Client) (k : Key) (seen : List Obs) : Prop :=
  ∃ since o before, seen = since ++ o :: before ∧ Sees c k o ∧ ∀ x ∈ since, ¬ Changes k x

/-- The client has not failed to update anything since it last saw an entity. -/
def Unhurt (c : Client) (seen : List Obs) : Prop :=
  ∃ since o before, seen = since ++ o :: before ∧ (∃ k, Sees c k o) ∧ ∀ x ∈ since, ∀ k r, x ≠ .failed c k r

/-- **No lost updates**: whoever overwrites an entity has seen what they overwrite. -/
def NoLostUpdate (seen : List Obs) : Prop :=
  ∀ later c k earlier, seen = later ++ .wrote c k :: earlier → UpToDate c k earlier

/-- Some key is used again after its entity was deleted. -/
def Reborn (ops : List Op) : Prop := ∃ a k b c v d, ops = a ++ .delete k :: (b ++ .insert c k v :: d)

/-- Clients leave a property alone: they always select it, and never set it. -/
def LeavesAlone (n : Name) (ops : List Op) : Prop :=
  (∀ c k l, .read c k (some l) ∈ ops → n ∈ l) ∧ ∀ c v, .set c n v ∉ ops

/-- Nobody holds an entity yet. -/
def Start (w : World) : Prop := ∀ c, w.hold c = none

/-- The stored value of a token can be followed by another. -/
def Advances (p : Property) (v : Val) : Prop :=
  match p.kind with
  | .int max => ∃ i, v = .int i ∧ i < max
  | .string => v ≠ .null
  | .binary => v ≠ .null
  | _ => False

/-- The entity that the client saw last. -/
def Last (c : Client) (k : Key) (seen : List Obs) : Prop :=
  ∃ since o before, seen = since ++ o :: before ∧ Sees c k o ∧ ∀ x ∈ since, ∀ j, ¬ Sees c j x

/-- What an update of an entity must leave: the selected properties of the entity, apart from the key; new tokens; and everything
else as it was. -/
structure Updated (T : List Property) (e e' : Entity) (before after : Table) : Prop where
  others : ∀ k, k ≠ e.key → after k = before k
  row : ∃ r r', before e.key = some r ∧ after e.key = some r' ∧
    (∀ p ∈ T, p.isKey = false → e.sel p.name = true → p.token = false → r' p.name = e.vals p.name) ∧
    (∀ p ∈ T, p.isKey = false → e.sel p.name = true → p.token = true → r p.name = e.vals p.name ∧ r p.name ≠ .null ∧ r' p.name = e'.vals p.name) ∧
    ∀ n, (∀ p ∈ T, p.name = n → p.isKey = true ∨ e.sel n = false) → r' n = r n

end Verif.OData.Tokens
