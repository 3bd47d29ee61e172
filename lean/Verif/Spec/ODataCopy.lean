import Verif.Model.ODataJson

/-!
# What copies of entities are
-/

namespace Verif.OData.Copy
open Verif.OData.Json (Ty Val Data)

variable {V : Type}

/-- The simple value that is found in properties under a path of names. -/
inductive At : List (Str × Data V) → List Str → Ty → Option (Val V) → Prop where
  | simple {fs k ty v} : (k, .simple ty v) ∈ fs → At fs [k] ty v
  | complex {fs k gs p ty v} : (k, .complex gs) ∈ fs → At gs p ty v → At fs (k :: p) ty v

/-- `after` is what is right when the properties `before` are set from `source`, an entity of the same type: a property that is not
in the key has the values of the source. -/
def Copied (keys : List Str) (source after : List (Str × Data V)) : Prop :=
  ∀ k p ty v, k ∉ keys → (At source (k :: p) ty v → At after (k :: p) ty v)

end Verif.OData.Copy
