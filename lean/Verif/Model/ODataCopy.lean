import Verif.Model.ODataJson

/-!
# Copies of entities

Models `SetNull`, `SetFromComplex`, `SetFromEntity` and `CopyEntity` of `pyslet/pyslet/odata2/csdl.py` (cited as *csdl*).  Properties
are the lists of names and values of `Model/ODataJson`, in the order of the type.
-/

namespace Verif.OData.Copy
open Verif.OData.Json (Ty Val Data)

variable {V : Type}

/-- `get` of the properties of a value or entity (csdl:113-). -/
def lookup (k : Str) : List (Str × Data V) → Option (Data V)
  | [] => none
  | (x, d) :: l => if x = k then some d else lookup k l

/-- Conversion between types: `SetFromValue` of another type (csdl:873-876). -/
abbrev Conv (V : Type) := Ty → Ty → Option (Val V) → Except Err (Option (Val V))

/-- `SetFromSimpleValue`, which is `Cast` (csdl:859-881): the new value of a property of type `ty`. -/
def setSimple (conv : Conv V) (ty : Ty) (newTy : Ty) (newValue : Option (Val V)) : Except Err (Data V) :=
  if newTy = ty then .ok (.simple ty newValue) else (conv newTy ty newValue).map (.simple ty)

mutual
/-- `SetNull` of a value (csdl:910-912, 1674-1677). -/
def setNull : Data V → Data V
  | .simple ty _ => .simple ty none
  | .complex fs => .complex (setNulls fs)

/-- `SetNull` of the properties (csdl:1676-1677). -/
def setNulls : List (Str × Data V) → List (Str × Data V)
  | [] => []
  | (k, d) :: fs => (k, setNull d) :: setNulls fs
end

mutual
/-- The body of the loop of `SetFromComplex` (csdl:1691-1704) for a property with value `d`, where `nv` was found. -/
def setOne (conv : Conv V) (d : Data V) (nv : Data V) : Except Err (Data V) :=
  match d with
  | .complex fs =>
    match nv with
    | .complex _ => (setFromComplex conv fs fs).map .complex
    | .simple _ _ => .error .valueError
  | .simple ty v =>
    match nv with
    | .complex _ => .ok (.simple ty v)
    | .simple _ _ => setSimple conv ty ty v

/-- `SetFromComplex` (csdl:1679-1704). -/
def setFromComplex (conv : Conv V) (fs : List (Str × Data V)) (newValue : List (Str × Data V)) :
    Except Err (List (Str × Data V)) :=
  match fs with
  | [] => .ok []
  | (k, d) :: fs =>
    match lookup k newValue with
    | none => do
      let r ← setFromComplex conv fs newValue
      .ok ((k, d) :: r)
    | some nv => do
      let d' ← setOne conv d nv
      let r ← setFromComplex conv fs newValue
      .ok ((k, d') :: r)
end

/-- What the variable `newValue` of `SetFromEntity` holds (csdl:1984). -/
inductive Source (V : Type) where
  | nothing
  | value (d : Data V)
  | entity (fs : List (Str × Data V))

/-- `newValue.get(k,None)` (csdl:1984): `None` and simple values have no `get`. -/
def Source.get (k : Str) : Source V → Except Err (Source V)
  | .nothing => .error .attributeError
  | .value (.simple _ _) => .error .attributeError
  | .value (.complex fs) => .ok (match lookup k fs with | some d => .value d | none => .nothing)
  | .entity fs => .ok (match lookup k fs with | some d => .value d | none => .nothing)

/-- The body of the loop of `SetFromEntity` (csdl:1985-1996) for a property with value `d`. -/
def setProperty (conv : Conv V) (d : Data V) : Source V → Except Err (Data V)
  | .nothing => .ok d
  | .entity _ => .ok d
  | .value nv =>
    match d with
    | .complex fs =>
      match nv with
      | .complex _ => (setFromComplex conv fs fs).map .complex
      | .simple _ _ => .ok d
    | .simple ty v =>
      match nv with
      | .complex _ => .ok d
      | .simple _ _ => setSimple conv ty ty v

/-- `SetFromEntity` (csdl:1969-1996): the variable with the source is assigned in the loop. -/
def setFromEntity (conv : Conv V) (keys : List Str) : List (Str × Data V) → Source V → Except Err (List (Str × Data V))
  | [], _ => .ok []
  | (k, d) :: fs, newValue =>
    if k ∈ keys then do
      let r ← setFromEntity conv keys fs newValue
      .ok ((k, d) :: r)
    else do
      let newValue ← newValue.get k
      let d' ← setProperty conv d newValue
      let r ← setFromEntity conv keys fs newValue
      .ok ((k, d') :: r)

/-- `CopyEntity` (csdl:2638-2644): `fresh` are the properties of a new entity. -/
def copyEntity (conv : Conv V) (keys : List Str) (fresh : List (Str × Data V)) (entity : List (Str × Data V)) :
    Except Err (List (Str × Data V)) := setFromEntity conv keys fresh (.entity entity)

end Verif.OData.Copy
