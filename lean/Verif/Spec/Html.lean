import Verif.Model.Html

/-! # Specification of embedded HTML and flow grouping (only data types are taken from the model) -/

namespace Verif.Spec

open Verif Verif.Html
open Verif.XmlUtils (Token)

/-- Properly nested calls: every start is matched by an end with the same name. -/
inductive Nested : List Ev → Prop where
  | nil : Nested []
  | chars (s : Str) {es} : Nested es → Nested (.chars s :: es)
  | element (n : Str) {es es'} : Nested es → Nested es' → Nested (.start n :: (es ++ .stop n :: es'))

/-- The text carried by tokens. -/
def tokenText : List Token → Str
  | [] => []
  | .text s :: ts => s ++ tokenText ts
  | _ :: ts => tokenText ts

/-- The names of start tags and empty element tags, in order. -/
def tokenStarts : List Token → List Str
  | [] => []
  | .stag n _ :: ts => n :: tokenStarts ts
  | .emptyTag n _ :: ts => n :: tokenStarts ts
  | _ :: ts => tokenStarts ts

/-- The text passed to `characters`. -/
def callText : List Ev → Str
  | [] => []
  | .chars s :: es => s ++ callText es
  | _ :: es => callText es

/-- The names passed to `startElement`. -/
def callStarts : List Ev → List Str
  | [] => []
  | .start n :: es => n :: callStarts es
  | _ :: es => callStarts es

mutual
/-- The text of an element, in document order. -/
def nodeText : Node → Str
  | .text s => s
  | .elem _ kids => nodesText kids
/-- The text of a sequence of elements. -/
def nodesText : List Node → Str
  | [] => []
  | n :: ns => nodeText n ++ nodesText ns
end

/-- The text without white space. -/
def noSpace (s : Str) : Str := s.filter (fun c => !Names.isSpace c)

mutual
/-- The pieces of content inside an element, in order. -/
def pieces {α} : FNode α → List α
  | .piece _ a => [a]
  | .p _ ks => piecesL ks
  | .div _ ks => piecesL ks
/-- The pieces of content of a sequence of elements, in order. -/
def piecesL {α} : List (FNode α) → List α
  | [] => []
  | k :: ks => pieces k ++ piecesL ks
end

end Verif.Spec
