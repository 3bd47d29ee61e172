import Verif.Model.Presentation
import Verif.Model.QtiRun
import Verif.Spec.Names

/-!
# What a migrated presentation should show and ask

`seen` is what a candidate sees of an element of the migrated item, `matSeen`, `flowSeen`, … what the
source shows; `interactions` are the places where the candidate answers.
-/

namespace Verif.Spec

open Verif.ItemXml (Elt)
open Verif.Pres

/-- What a candidate sees. -/
inductive Seen where
  | text (s : Str)
  /-- an image or sound, by its location -/
  | media (uri : Str)
  | brk
deriving DecidableEq, Repr

/-- A location, if there is one. -/
def mediaSeen : Option Str → List Seen
  | some (c :: t) => [.media (c :: t)]
  | _ => []

/-- A label, if there is one. -/
def textSeen : Option Str → List Seen
  | some (c :: t) => [.text (c :: t)]
  | _ => []

mutual
/-- What a candidate sees of an element, in order. -/
def seen : Elt → List Seen
  | .text s => [.text s]
  | .br _ => [.brk]
  | .img _ src _ _ _ _ => mediaSeen src
  | .object data _ _ _ => mediaSeen data
  | .inline _ _ kids => seenAll kids
  | .div _ kids => seenAll kids
  | .blockquote _ kids => seenAll kids
  | .list _ _ kids => seenAll kids
  | .li _ kids => seenAll kids
  | .p _ kids => seenAll kids
  | .pre _ kids => seenAll kids
  | .table _ _ kids => seenAll kids
  | .tbody _ kids => seenAll kids
  | .tr _ kids => seenAll kids
  | .cell _ _ kids => seenAll kids
  | .rubric _ _ kids => seenAll kids
  | .prompt kids => seenAll kids
  | .choiceInteraction _ _ _ _ prompt kids => seenAll prompt ++ seenAll kids
  | .orderInteraction _ _ _ prompt kids => seenAll prompt ++ seenAll kids
  | .associateInteraction _ _ _ _ prompt kids => seenAll prompt ++ seenAll kids
  | .simpleChoice _ _ _ kids => seenAll kids
  | .simpleAssociableChoice _ _ _ _ kids => seenAll kids
  | .extendedText _ _ _ _ prompt => seenAll prompt
  | .textEntry _ _ _ => []
  | .hotspot _ _ _ prompt graphic kids => seenAll prompt ++ seen graphic ++ seenAll kids
  | .selectPoint _ _ _ prompt graphic => seenAll prompt ++ seen graphic
  | .graphicOrder _ _ graphic kids => seen graphic ++ seenAll kids
  | .hotspotChoice _ _ _ _ label => textSeen label
  | .slider _ _ _ _ _ _ _ _ prompt => seenAll prompt
/-- The same for a list. -/
def seenAll : List Elt → List Seen
  | [] => []
  | e :: es => seen e ++ seenAll es
end

mutual
/-- The interactions in an element, in order. -/
def interactions : Elt → List Elt
  | .inline _ _ kids => interactionsAll kids
  | .div _ kids => interactionsAll kids
  | .blockquote _ kids => interactionsAll kids
  | .list _ _ kids => interactionsAll kids
  | .li _ kids => interactionsAll kids
  | .p _ kids => interactionsAll kids
  | .pre _ kids => interactionsAll kids
  | .table _ _ kids => interactionsAll kids
  | .tbody _ kids => interactionsAll kids
  | .tr _ kids => interactionsAll kids
  | .cell _ _ kids => interactionsAll kids
  | .rubric _ _ kids => interactionsAll kids
  | .choiceInteraction r b sh m p k => [.choiceInteraction r b sh m p k]
  | .orderInteraction r b sh p k => [.orderInteraction r b sh p k]
  | .associateInteraction r b sh m p k => [.associateInteraction r b sh m p k]
  | .extendedText r b a m p => [.extendedText r b a m p]
  | .textEntry r b a => [.textEntry r b a]
  | .hotspot r b m p g k => [.hotspot r b m p g k]
  | .selectPoint r b m p g => [.selectPoint r b m p g]
  | .graphicOrder r b g k => [.graphicOrder r b g k]
  | .slider r b l u s sl o rv p => [.slider r b l u s sl o rv p]
  | _ => []
/-- The same for a list. -/
def interactionsAll : List Elt → List Elt
  | [] => []
  | e :: es => interactions e ++ interactionsAll es
end

/-- The identifier of the response that an interaction is for. -/
def responseOf : Elt → Str
  | .choiceInteraction r .. => r
  | .orderInteraction r .. => r
  | .associateInteraction r .. => r
  | .extendedText r .. => r
  | .textEntry r .. => r
  | .hotspot r .. => r
  | .selectPoint r .. => r
  | .graphicOrder r .. => r
  | .slider r .. => r
  | _ => []

/-- The choices of an interaction. -/
def choicesOf : Elt → List Elt
  | .choiceInteraction _ _ _ _ _ k => k
  | .orderInteraction _ _ _ _ k => k
  | .associateInteraction _ _ _ _ _ k => k
  | .hotspot _ _ _ _ _ k => k
  | .graphicOrder _ _ _ k => k
  | _ => []

/-- The identifier of a choice. -/
def choiceId : Elt → Str
  | .simpleChoice _ i _ _ => i
  | .simpleAssociableChoice i _ _ _ _ => i
  | .hotspotChoice i _ _ _ _ => i
  | _ => []

/-- May the choices of an interaction be shuffled? -/
def shuffled : Elt → Bool
  | .choiceInteraction _ _ sh _ _ _ => sh
  | .orderInteraction _ _ sh _ _ => sh
  | .associateInteraction _ _ sh _ _ _ => sh
  | _ => false

/-- Does a choice stay in its place when the choices are shuffled? -/
def choiceFixed : Elt → Option Bool
  | .simpleChoice _ _ f _ => f
  | .simpleAssociableChoice _ f _ _ _ => f
  | .hotspotChoice _ f _ _ _ => f
  | _ => none

/-- The shape and the coordinates of a region. -/
def regionOf : Elt → Option (Str × List Int)
  | .hotspotChoice _ _ shape coords _ => some (shape, coords)
  | _ => none

/-- What a candidate sees of the image of an interaction. -/
def graphicOf : Elt → List Seen
  | .hotspot _ _ _ _ g _ => seen g
  | .selectPoint _ _ _ _ g => seen g
  | .graphicOrder _ _ g _ => seen g
  | _ => []

/-- How many answers a candidate may give: `none` for any number. -/
def maxAnswers : Elt → Option Int
  | .choiceInteraction _ _ _ m _ _ => if m = 0 then none else some m
  | .associateInteraction _ _ _ m _ _ => if m = 0 then none else some m
  | .hotspot _ _ m _ _ _ => if m = 0 then none else some m
  | .selectPoint _ _ m _ _ => if m = 0 then none else some m
  | .extendedText _ _ _ m _ => match m with | none => some 1 | some n => if n = 0 then none else some n
  | .textEntry .. => some 1
  | .slider .. => some 1
  | _ => none

/-- The cardinalities and base types a response may have for an interaction (QTI 2.0). -/
def Suits (e : Elt) (card base : Str) : Prop :=
  let single := card = "single".toList
  let multiple := card = "multiple".toList
  let ordered := card = "ordered".toList
  let identifier := base = "identifier".toList
  let text := base = "string".toList ∨ base = "integer".toList ∨ base = "float".toList
  match e with
  | .choiceInteraction .. => (single ∨ multiple) ∧ identifier
  | .orderInteraction .. => ordered ∧ identifier
  | .associateInteraction .. => (single ∨ multiple) ∧ base = "pair".toList
  | .extendedText .. => (single ∨ multiple ∨ ordered) ∧ text
  | .textEntry .. => single ∧ text
  | .hotspot .. => (single ∨ multiple) ∧ identifier
  | .selectPoint .. => (single ∨ multiple) ∧ base = "point".toList
  | .graphicOrder .. => ordered ∧ identifier
  | .slider .. => single ∧ (base = "integer".toList ∨ base = "float".toList)
  | _ => False

/-! ## The source -/

/-- What a piece of material shows.  Pieces that are not supported at all, and images and sounds without a location,
are left out. -/
def pieceSeen : Piece → List Seen
  | .text _ _ data => [.text data]
  | .formatted es => seenAll es
  | .emtext _ _ data => [.text data]
  | .emtextOther data => [.text data]
  | .image _ uri _ _ => mediaSeen uri
  | .audio _ uri => mediaSeen uri
  | .brk => [.brk]
  | .unsupported => []

/-- What a `material` shows. -/
def matSeen (m : Material) : List Seen := m.pieces.flatMap pieceSeen

mutual
/-- What a `material` or `flow_mat` shows. -/
def matFlowSeen : MatFlow → List Seen
  | .mat m => matSeen m
  | .flow _ kids => matFlowsSeen kids
/-- The same for a list. -/
def matFlowsSeen : List MatFlow → List Seen
  | [] => []
  | k :: ks => matFlowSeen k ++ matFlowsSeen ks
end

/-- The text written directly in a label. -/
def labelText (l : Label) : Str :=
  Names.strip (l.items.flatMap fun i => match i with | .data s => s | .content _ => [])

/-- The `material` and `flow_mat` elements of a label. -/
def labelContents (l : Label) : List MatFlow :=
  l.items.flatMap fun i => match i with | .data _ => [] | .content c => [c]

/-- What a label shows. -/
def labelSeen (l : Label) : List Seen :=
  (if labelText l = [] then [] else [.text (labelText l)]) ++ matFlowsSeen (labelContents l)

/-- The labels of a rendering, in order. -/
def labelsOf (items : List RItem) : List Label :=
  items.flatMap fun i => match i with | .mat _ => [] | .labels t => t.labels

/-- The materials of a rendering, in order. -/
def matsOf (items : List RItem) : List Material :=
  items.flatMap fun i => match i with | .mat m => [m] | .labels _ => []

/-- What a part of a rendering shows. -/
def renderItemSeen : RItem → List Seen
  | .mat m => matSeen m
  | .labels t => t.labels.flatMap labelSeen

/-- What a part of a response shows. -/
def respItemSeen : RespItem → List Seen
  | .mat m => matSeen m
  | .render _ items => items.flatMap renderItemSeen

mutual
/-- What a part of a presentation shows, in the order of the document. -/
def flowItemSeen : FlowItem → List Seen
  | .flow _ kids => flowSeen kids
  | .mat m => matSeen m
  | .resp q => q.items.flatMap respItemSeen
/-- The same for a list. -/
def flowSeen : List FlowItem → List Seen
  | [] => []
  | k :: ks => flowItemSeen k ++ flowSeen ks
end

mutual
/-- The responses of a part of a presentation, in order. -/
def responsesOf : FlowItem → List Response
  | .flow _ kids => responsesIn kids
  | .mat _ => []
  | .resp q => [q]
/-- The same for a list. -/
def responsesIn : List FlowItem → List Response
  | [] => []
  | k :: ks => responsesOf k ++ responsesIn ks
end

/-- The renderings of a response, in order. -/
def rendersOf (is : List RespItem) : List (Render × List RItem) :=
  is.flatMap fun i => match i with | .mat _ => [] | .render k items => [(k, items)]

/-- A yes-or-no attribute. -/
def saysYes (dflt : Bool) : Option Str → Bool
  | none => dflt
  | some v => decide (Py.lower v = "yes".toList)

/-- A whole number in an attribute. -/
def saysNumber (attr : Option Str) (n : Int) : Prop := ∃ v, attr = some v ∧ Py.intOfStr (Names.strip v) = .ok n

/-- A bound of a slider as it is written: the number given, or the default. -/
def BoundKept (integer : Bool) (dflt : Str) (attr : Option (Option FloatVal)) (text : Str) : Prop :=
  match attr with
  | none => text = dflt
  | some none => True
  | some (some f) => if integer then ∀ k : Int, f.val = k → text = ItemXml.strInt k else text = f.text

/-- The step of a slider as it is written: the number given, unless it is zero. -/
def StepKept (integer : Bool) (attr : Option (Option FloatVal)) (text : Option Str) : Prop :=
  match attr with
  | some (some f) => if integer then ∀ k : Int, f.val = k → text = if k = 0 then none else some (ItemXml.strInt k)
      else text = if f.val = 0 then none else some f.text
  | _ => text = none

/-- The length of the text that is expected: that of `maxchars`, or that of the field. -/
def TextLength (rows columns maxchars : Option Str) (len : Option Int) : Prop :=
  (∀ n, saysNumber maxchars n → n ≠ 0 → len = some n) ∧
  (maxchars = none → ∀ c, saysNumber columns c → c ≠ 0 →
    (rows = none → len = some c) ∧ ∀ r, saysNumber rows r → r ≠ 0 → len = some (r * c)) ∧
  (maxchars = none → columns = none → len = none)

/-- Is the answer a number? -/
def isNumber : RKind → Bool
  | .num _ => true
  | _ => false

/-- A text question as it is migrated: the expected length, the base of a number, and the look of the field. -/
def TextKept (kind : RKind) (rows columns maxchars prompt : Option Str) : Elt → Prop
  | .extendedText _ b a _ _ => TextLength rows columns maxchars a.expectedLength ∧
      a.base = (if isNumber kind then some 10 else none) ∧
      (∀ v, prompt = some v → Names.strip v ≠ [] → b.classid = some (Names.strip v)) ∧ (prompt = none → b.classid = none)
  | .textEntry _ b a => TextLength rows columns maxchars a.expectedLength ∧
      a.base = (if isNumber kind then some 10 else none) ∧
      (∀ v, prompt = some v → Names.strip v ≠ [] → b.classid = some (Names.strip v)) ∧ (prompt = none → b.classid = none)
  | _ => False

/-- How many answers a question allows: `none` for any number. -/
def Allows (card : Card) (maxnumber : Option Str) (limit : Option Int) : Prop :=
  match maxnumber with
  | none => limit = if card = .single then some 1 else none
  | some _ => ∀ n, saysNumber maxnumber n → n ≠ 0 → limit = some n

/-- What a part of `itemfeedback` shows. -/
def fbSeen : FbItem → List Seen
  | .content c => matFlowSeen c
  | .solution _ kids => matFlowsSeen kids
  | .hint _ kids => matFlowsSeen kids

/-- A condition on every piece of material of a part of `itemfeedback`. -/
def fbKids : FbItem → List MatFlow
  | .content c => [c]
  | .solution _ kids => kids
  | .hint _ kids => kids

/-! ## Conditions on the source -/

/-- Formatted text that stands on its own: text, phrases and blocks that ask nothing. -/
def PlainElts (es : List Elt) : Prop := ∀ e ∈ es, (isInline e = true ∨ isBlock e = true) ∧ interactions e = []

/-- A piece of material whose formatted text stands on its own. -/
def PlainPiece : Piece → Prop
  | .formatted es => PlainElts es
  | _ => True

/-- A piece of material that is not emphasised text of an unknown type. -/
def TypedPiece : Piece → Prop
  | .emtextOther _ => False
  | _ => True

/-- A condition on every piece of a material. -/
def Mat (P : Piece → Prop) (m : Material) : Prop := ∀ p ∈ m.pieces, P p

mutual
/-- A condition on every piece of material of a `material` or `flow_mat`. -/
def MatF (P : Piece → Prop) : MatFlow → Prop
  | .mat m => Mat P m
  | .flow _ kids => MatFs P kids
/-- The same for a list. -/
def MatFs (P : Piece → Prop) : List MatFlow → Prop
  | [] => True
  | k :: ks => MatF P k ∧ MatFs P ks
end

/-- A condition on every piece of material of a label. -/
def LabelP (P : Piece → Prop) (l : Label) : Prop := MatFs P (labelContents l)

/-- A condition on every piece of material of a rendering. -/
def ItemsP (P : Piece → Prop) (items : List RItem) : Prop :=
  (∀ m ∈ matsOf items, Mat P m) ∧ ∀ l ∈ labelsOf items, LabelP P l

/-- A condition on every piece of material of a part of a response. -/
def RespItemP (P : Piece → Prop) : RespItem → Prop
  | .mat m => Mat P m
  | .render _ items => ItemsP P items

mutual
/-- A condition on every piece of material of a part of a presentation. -/
def FlowP (P : Piece → Prop) : FlowItem → Prop
  | .flow _ kids => FlowsP P kids
  | .mat m => Mat P m
  | .resp q => ∀ i ∈ q.items, RespItemP P i
/-- The same for a list. -/
def FlowsP (P : Piece → Prop) : List FlowItem → Prop
  | [] => True
  | k :: ks => FlowP P k ∧ FlowsP P ks
end

/-- Materials, then labels, then materials. -/
def Framed (items : List RItem) : Prop :=
  ∃ a b c, items = a ++ b ++ c ∧ (∀ i ∈ a, ∃ m, i = .mat m) ∧ (∀ i ∈ b, ∃ t, i = .labels t) ∧ (∀ i ∈ c, ∃ m, i = .mat m)

/-- A label with text or with other content, not both. -/
def LabelPure (l : Label) : Prop := labelText l = [] ∨ labelContents l = []

/-- A choice question the converter supports, with no material between its labels. -/
def ChoiceKept (items : List RItem) : Prop := Framed items ∧ ∀ l ∈ labelsOf items, LabelPure l

/-- The renderings whose material the converter keeps. -/
def RenderKept (kind : RKind) (card : Card) (k : Render) (items : List RItem) : Prop :=
  match k with
  | .choice .. =>
    match kind with
    | .lid => ChoiceKept items
    | .grp => card ≠ .ordered ∧ ChoiceKept items
    | _ => labelsOf items = []
  | .slider .. =>
    match kind with
    | .lid => if card = .single then ChoiceKept items else labelsOf items = []
    | _ => labelsOf items = []
  | .fib .. => (∀ l ∈ labelsOf items, labelSeen l = []) ∧ (labelsOf items = [] → (matsOf items).flatMap matSeen = [])
  | .hotspot .. => False

/-- A response with at most one rendering, the material of which the converter keeps. -/
def RespKept (q : Response) : Prop :=
  (q.items.countP (fun i => match i with | .mat _ => false | .render .. => true) ≤ 1) ∧
    ∀ k items, RespItem.render k items ∈ q.items → RenderKept q.kind q.card k items

/-- A label that is coordinates only: whole numbers with commas or blanks between them. -/
def CoordLabel (l : Label) : Prop :=
  ∀ i ∈ l.items, ∃ t, i = .data t ∧ ∀ c ∈ t, Py.isDigit c = true ∨ c = ',' ∨ c = ' '

/-- Material without formatted text. -/
def Unformatted (m : Material) : Prop := ∀ p ∈ m.pieces, ∀ es, p ≠ .formatted es

/-- The renderings that are not rejected by mistake: a blank for text or a number, a slider with all it needs, an image
with regions given by coordinates only. -/
def RenderSafe (kind : RKind) (card : Card) (items : List RItem) : Render → Prop
  | .choice .. => True
  | .hotspot .. =>
    (∀ m ∈ matsOf items, Unformatted m) ∧
    match kind with
    | .lid => ∀ l ∈ labelsOf items, CoordLabel l
    | .xy => True
    | _ => False
  | .slider _ _ _ _ startval steplabel =>
    match kind with
    | .num (some v) =>
      card = .single → steplabel ≠ none ∧ (Py.lower v = "integer".toList → startval ≠ none)
    | .num none => card = .single → steplabel ≠ none
    | _ => True
  | .fib .. => match kind with | .str | .num _ => True | _ => False

/-- Is modal feedback shown (QTI 2.0)?  Feedback that is to be shown is shown when the value of its outcome contains its
identifier, other feedback when it does not. -/
def FeedbackShown (st : Qti.State) (m : ItemXml.Feedback) : Prop :=
  ∃ bt as, st.get m.outcomeIdentifier = .ok (.multiple bt as) ∧
    if m.showHide = "show".toList then .str m.identifier ∈ as else .str m.identifier ∉ as

/-- Those who see a part of the body (QTI 2.0): a rubric only those whom it names. -/
def seenBy : Elt → List Str
  | .rubric _ views _ => views
  | _ => targetViews

/-- The roles of the source that have a counterpart in the target. -/
def roleKept : List (Str × Str) :=
  [("assessor", "scorer"), ("author", "author"), ("candidate", "candidate"), ("psychometrician", "scorer"),
   ("scorer", "scorer"), ("tutor", "tutor")].map fun p => (p.1.toList, p.2.toList)

end Verif.Spec
