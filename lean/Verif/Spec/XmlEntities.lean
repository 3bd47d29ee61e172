import Verif.Model.XmlEntities

/-!
# What entities stand for
-/

namespace Verif.PyXml.Ent

/-- The text that characters and references stand for: every reference stands for what the text of its entity stands for. -/
inductive Means (d : Decl) : List Tok → List Char → Prop
  | nil : Means d [] []
  | chr {c ts out} : Means d ts out → Means d (.chr c :: ts) (c :: out)
  | ref {n text ts mid out} : d n = some text → Means d text mid → Means d ts out → Means d (.ref n :: ts) (mid ++ out)

/-- Some entity contains a reference to itself, or to one that contains … a reference to it: none does if references go down in
some order. -/
def Acyclic (d : Decl) : Prop := ∃ rank : Name → Nat, ∀ n text, d n = some text → ∀ m, .ref m ∈ text → rank m < rank n

/-- Everything that is referred to is declared. -/
def Declared (d : Decl) (doc : List Tok) : Prop :=
  (∀ m, .ref m ∈ doc → d m ≠ none) ∧ ∀ n text, d n = some text → ∀ m, .ref m ∈ text → d m ≠ none

end Verif.PyXml.Ent
