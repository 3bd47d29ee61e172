import Verif.Model.MemStore

/-!
# What the entity store is expected to do

A value fits the type of its property if it is a simple value for a simple property, or a tuple of fitting values for a
complex one.  An entity fits its type if it has a fitting value for each property.  The kept tuple of an entity has a
fitting value in the place of each property.
-/

namespace Verif.Spec.MemStore

open Verif Verif.MemStore

mutual
/-- The value fits the type. -/
def Fits : Shape → Val → Prop
  | .simple _, .atom _ => True
  | .complex fs, .tup vs => FitsAll fs vs
  | _, _ => False
/-- The values fit the types, one for each. -/
def FitsAll : List Shape → List Val → Prop
  | [], [] => True
  | s :: ss, v :: vs => Fits s v ∧ FitsAll ss vs
  | _, _ => False
end

/-- The entity has a fitting value for each property of its type. -/
structure EntFits (t : EType) (e : Ent) : Prop where
  names : e.vals.map (·.1) = t.props.map (·.1)
  values : FitsAll (t.props.map (·.2)) (e.vals.map (·.2))

/-- Names of properties are used once, the keys are simple properties, and a numeric key is the only one. -/
structure TypeOk (t : EType) : Prop where
  once : (t.props.map (·.1)).Nodup
  keys : ∀ k ∈ t.keys, k ∈ t.props.map (·.1)
  simple : ∀ p ∈ t.props, p.1 ∈ t.keys → ∃ d, p.2 = .simple d
  numeric : t.numericKey = true → ∃ k, t.keys = [k]

/-- The store has at most one tuple for a key, and all tuples have a value in the place of each property. -/
structure StoreOk (t : EType) (st : Store) : Prop where
  once : (st.data.map (·.1)).Nodup
  aligned : ∀ p ∈ st.data, FitsAll (t.props.map (·.2)) p.2

/-- The entities keep their data from `st` to `st'`, except perhaps the one with the given key. -/
def OthersKept (st st' : Store) (key : Key) : Prop :=
  ∀ k, k ≠ key → Dict.get st'.data k = Dict.get st.data k ∧ Dict.get st'.streams k = Dict.get st.streams k

/-- `new` is what is read after `change` was written over `old`: the selected properties are those of `change`, the
others those of `old`. -/
def Overwritten (change : Ent) (old new : List (Str × Val)) : Prop :=
  ∀ n, Dict.get new n = if change.isSelected n then Dict.get change.vals n else Dict.get old n

/-- The function of the properties takes only the named ones into account. -/
def DependsOn {α : Type} (names : List Str) (f : List (Str × Val) → α) : Prop :=
  ∀ vs vs', vs.map (·.1) = vs'.map (·.1) → (∀ n ∈ names, Dict.get vs n = Dict.get vs' n) → f vs = f vs'

end Verif.Spec.MemStore
