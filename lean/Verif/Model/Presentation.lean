import Verif.Model.ItemXml
import Verif.Model.ItemVars
import Verif.Model.Html
import Verif.Model.Shapes
import Verif.Model.V1Resp

/-!
# Migration of the presentation, rubrics, objectives and feedback of an item

The classes of /repo/QTIMigration/lib/imsqtiv1.py:1372-3127 that turn `presentation`, `rubric`,
`objectives` and `itemfeedback` into the objects of /repo/QTIMigration/lib/imsqti.py (`Verif.ItemXml.Elt`).

The source is given as a tree of elements with their attributes.  Each `CloseObject` appends to its
parent; here a function returns the list of what is appended, in order.  Simplifications: warnings are
left out; attributes that only cause warnings (`x0`, `rtiming`, `minnumber`, `showdraw`, …) are left out;
`ident` attributes, which the DTD requires, are always there; `rcardinality` is one of the three values of
the DTD; numbers of sliders are given as read (`FloatVal`); the URI of an image or sound is given as the
location in the package that `AddCPFile` returns for it.
-/

set_option linter.unusedVariables false

namespace Verif.Pres

open Verif Verif.ItemXml

/-! ## Attributes -/

/-- `self.cardinality` of a response (imsqtiv1.py:2215, 2234-2235). -/
inductive Card where
  | single | multiple | ordered
deriving DecidableEq, Repr

/-- The text of a cardinality in a declaration (imsqti.py:242, 266). -/
def Card.text : Card → Str
  | .single => "single".toList
  | .multiple => "multiple".toList
  | .ordered => "ordered".toList

/-- `self.baseType` of a response (imsqtiv1.py:2221, 2325, 2340, 2355, 2375-2384, 2398). -/
inductive Base where
  | identifier | point | string | integer | float | pair
deriving DecidableEq, Repr

/-- The text of a base type in a declaration (imsqti.py:243, 267). -/
def Base.text : Base → Str
  | .identifier => "identifier".toList
  | .point => "point".toList
  | .string => "string".toList
  | .integer => "integer".toList
  | .float => "float".toList
  | .pair => "pair".toList

/-- `ReadYesNo` (imsqtiv1.py:128-134): `None` for any other value, whatever the default. -/
def readYesNo (value : Str) : Option Bool :=
  if Py.lower value = "yes".toList then some true
  else if Py.lower value = "no".toList then some false
  else none

/-- The truth value of what `ReadYesNo` returned for an attribute, or of the initial value. -/
def flag (dflt : Bool) (attr : Option Str) : Bool :=
  match attr with
  | none => dflt
  | some v => (readYesNo v).getD false

/-- `ReadInteger` (imsqtiv1.py:143-148).  `int(value)` ignores surrounding white space; a leading `+` is
not modelled. -/
def readInteger (value : Str) (dflt : Option Int) : Option Int :=
  match Py.intOfStr (Names.strip value) with
  | .ok n => some n
  | .error _ => dflt

/-- An attribute read by `ReadInteger(value,None)`; a value of zero counts as missing in `if self.max`
(imsqtiv1.py:2485, 2489, 2557, 2567, 2810, 2918). -/
def readCount (attr : Option Str) : Option Int :=
  match attr with
  | none => none
  | some v =>
    match readInteger v none with
    | none => none
    | some n => if n = 0 then none else some n

/-- A Python `float`: its value and its `str`. -/
structure FloatVal where
  val : Rat
  text : Str

/-- `if x` of an optional string: neither `None` nor empty. -/
def given (x : Option Str) : Bool :=
  match x with
  | none => false
  | some s => !s.isEmpty

/-! ## Classes of elements -/

/-- `isinstance(element,Inline)` (imsqti.py:342-794). -/
def isInline : Elt → Bool
  | .text _ | .br _ | .img .. | .object .. | .inline .. | .textEntry .. => true
  | _ => false

/-- `isinstance(element,Block)` (imsqti.py:340-1190). -/
def isBlock : Elt → Bool
  | .div .. | .blockquote .. | .list .. | .p .. | .pre .. | .table .. => true
  | .choiceInteraction .. | .orderInteraction .. | .associateInteraction .. | .extendedText .. => true
  | .hotspot .. | .selectPoint .. | .graphicOrder .. | .slider .. => true
  | _ => false

mutual
/-- `ExtractText` (imsqti.py:315-317, 365-369, 382-386, 400-404, 770-771).  The version of `BodyElement`, which all
other classes inherit, calls `self.PrintWarning`, a method they do not have. -/
def extractText : Elt → Except Err Str
  | .text s => .ok s
  | .inline _ _ kids => extractTexts kids
  | .p _ kids => extractTexts kids
  | .pre _ kids => extractTexts kids
  | .blockquote _ kids => extractTexts kids
  | _ => .error .attributeError
/-- The loop `text=text+element.ExtractText()`. -/
def extractTexts : List Elt → Except Err Str
  | [] => .ok []
  | e :: es => extractText e >>= fun s => extractTexts es >>= fun t => .ok (s ++ t)
end

/-- `element.type[:6]=='image/'` of an `xhtml_object` (imsqti.py:494); there is no such slice of `None`. -/
def isImageType (type : Option Str) : Except Err Bool :=
  match type with
  | none => .error .typeError
  | some t => .ok (t.take 6 == "image/".toList)

mutual
/-- `ExtractImages` of an element (imsqti.py:319-320, 371-372, 388-389, 406-407, 519-520): the images taken out of
it, and what is left of it. -/
def imagesOf : Elt → Except Err (List Elt × Elt)
  | .inline name b kids => imagesIn kids >>= fun r => .ok (r.1, .inline name b r.2)
  | .div b kids => imagesIn kids >>= fun r => .ok (r.1, .div b r.2)
  | .p b kids => imagesIn kids >>= fun r => .ok (r.1, .p b r.2)
  | .pre b kids => imagesIn kids >>= fun r => .ok (r.1, .pre b r.2)
  | .blockquote b kids => imagesIn kids >>= fun r => .ok (r.1, .blockquote b r.2)
  | e => .ok ([], e)
/-- The function `ExtractImages` (imsqti.py:489-500): the images taken out, and the elements left. -/
def imagesIn : List Elt → Except Err (List Elt × List Elt)
  | [] => .ok ([], [])
  | .object data type w h :: es =>
    isImageType type >>= fun b => imagesIn es >>= fun r =>
      if b then .ok (.object data type w h :: r.1, r.2) else .ok (r.1, .object data type w h :: r.2)
  | e :: es => imagesOf e >>= fun r => imagesIn es >>= fun q => .ok (r.1 ++ q.1, r.2 :: q.2)
end

/-! ## Material -/

/-- The contents of `material`. -/
inductive Piece where
  /-- `mattext` of type `text/plain` -/
  | text (label lang : Option Str) (data : Str)
  /-- `mattext` of type `text/html` or `text/rtf`, or of an unknown type: the elements it is parsed into
  (`Verif.Html.makeText`) -/
  | formatted (es : List Elt)
  /-- `matemtext` of type `text/plain` -/
  | emtext (label lang : Option Str) (data : Str)
  /-- `matemtext` of an unknown type -/
  | emtextOther (data : Str)
  /-- `matimage` -/
  | image (imagtype uri : Option Str) (width height : Option Int)
  /-- `mataudio` -/
  | audio (audiotype uri : Option Str)
  /-- `matbreak` -/
  | brk
  /-- elements that are not supported: `matvideo`, `matapplet`, `matapplication`, `mat_extension`, `altmaterial` -/
  | unsupported

/-- `material` (imsqtiv1.py:1599-1605). -/
structure Material where
  label : Option Str := none
  lang : Option Str := none
  pieces : List Piece

/-- The `span` around a labelled text (imsqtiv1.py:1910-1916, 2040-2046). -/
def labelled (label lang : Option Str) (e : Elt) : Elt :=
  if given label || given lang then .inline "span".toList { label := label, language := lang } [e] else e

/-- `if not self.type: self.type=…` (imsqtiv1.py:1989-1990, 2108-2109, 2166-2167). -/
def typeOr (dflt : String) (type : Option Str) : Str :=
  match type with
  | some (c :: t) => c :: t
  | _ => dflt.toList

/-- `if self.width: element.SetWidth(self.width)` (imsqtiv1.py:1706-1709, 1721-1724). -/
def sized (n : Option Int) : Option Int :=
  match n with
  | none => none
  | some i => if i = 0 then none else some i

/-- The elements a piece of material appends (`CloseObject` and `MakeText` of `MatEmText`, `MatText`, `MatImage`,
`MatAudio`, `MatBreak`: imsqtiv1.py:1892-1941, 2024-2074, 2137-2151, 2175-2185, 2201-2202).  `hot` says whether there is
a `render_hotspot` around it (`SniffRenderHotspot`, imsqtiv1.py:237-241, 2536-2537). -/
def pieceElts (hot : Bool) : Piece → List Elt
  | .text label lang data => [labelled label lang (.text data)]
  | .formatted es => es
  | .emtext label lang data => [labelled label lang (.inline "em".toList {} [.text data])]
  | .emtextOther _ => []
  | .image type uri w h =>
    if given uri then
      if hot then [.object uri (some (typeOr "image/jpeg" type)) (sized w) (sized h)]
      else [.img {} uri [] none (sized w) (sized h)]
    else []
  | .audio type uri => if given uri then [.object uri (some (typeOr "audio/base" type)) none none] else []
  | .brk => [.br {}]
  | .unsupported => []

/-- The elements `Material` passes on to its parent (imsqtiv1.py:1606-1638): `label` and `language` are set to `None`
after the attributes have been read, so `self.elide` is always true. -/
def materialElts (hot : Bool) (m : Material) : List Elt := m.pieces.flatMap (pieceElts hot)

/-- The element made for a node of the grouping of `Verif.Html.closeFlow`. -/
def ofNode : Html.FNode Elt → Elt
  | .piece _ e => e
  | .p cls kids => .p { classid := cls } (ofNodes kids)
  | .div cls kids => .div { classid := some cls } (ofNodes kids)
where
  /-- The children of such a node. -/
  ofNodes : List (Html.FNode Elt) → List Elt
  | [] => []
  | k :: ks => ofNode k :: ofNodes ks

/-- `self.flowclass and self.flowclass.lower()!='block'` (imsqtiv1.py:1541, 1548). -/
def flowClass (cls : Option Str) : Option Str :=
  match cls with
  | none => none
  | some c => if c.isEmpty then none else if Py.lower c = "block".toList then none else some c

/-- `FlowV1.CloseObject` (imsqtiv1.py:1532-1573): the elements appended to the parent. -/
def closeFlow (cls : Option Str) (level : Nat) (kids : List Elt) : List Elt :=
  (Html.closeFlow (flowClass cls) level (kids.map fun e => .piece (isInline e) e)).map ofNode

/-- The contents of `flow_mat`, `rubric`, `objectives`, `solutionmaterial`, `hintmaterial`: `flow_mat` or `material`. -/
inductive MatFlow where
  | mat (m : Material)
  | flow (cls : Option Str) (kids : List MatFlow)

mutual
/-- The elements that the contents of a `flow_mat` of the given level append to it: a `material` passes its own
elements on, an inner `flow_mat` is one level further down (imsqtiv1.py:1585-1593). -/
def innerElts (hot : Bool) (level : Nat) : MatFlow → List Elt
  | .mat m => materialElts hot m
  | .flow cls kids => closeFlow cls (level + 1) (innerEltsAll hot (level + 1) kids)
/-- The same for a list. -/
def innerEltsAll (hot : Bool) (level : Nat) : List MatFlow → List Elt
  | [] => []
  | k :: ks => innerElts hot level k ++ innerEltsAll hot level ks
end

/-- The elements appended to an object of the given flow level that wraps each `material` of its own in a `FlowMat`
(imsqtiv1.py:1627-1629). -/
def wrappedElts (hot : Bool) (level : Nat) : MatFlow → List Elt
  | .mat m => closeFlow none (level + 1) (materialElts hot m)
  | .flow cls kids => innerElts hot level (.flow cls kids)

/-! ## Labels -/

/-- The contents of `response_label`. -/
inductive LabelItem where
  | data (s : Str)
  | content (c : MatFlow)

/-- `response_label` (imsqtiv1.py:2831-2856). -/
structure Label where
  ident : Str
  rshuffle : Option Str := none
  rarea : Option Str := none
  matchGroup : Option Str := none
  matchMax : Option Str := none
  items : List LabelItem

/-- `self.labelThing` of a `render_*` element: the class made for a label. -/
inductive LabelThing where
  | simple | associable | hotspot | string
deriving DecidableEq, Repr

/-- What a label appends to the `render_*` element: an element, or the identifier of a blank. -/
inductive Made where
  | elt (e : Elt)
  | blank (ident : Str)

/-- `self.data` of a label (imsqtiv1.py:2895-2896). -/
def labelData (l : Label) : Str :=
  l.items.flatMap fun i => match i with | .data s => s | .content _ => []

/-- `self.children` of a label (imsqtiv1.py:2892-2893). -/
def labelChildren (hot : Bool) (level : Nat) (l : Label) : List Elt :=
  l.items.flatMap fun i => match i with | .data _ => [] | .content c => wrappedElts hot level c

/-- What becomes of the contents of a label for a choice (imsqtiv1.py:2903-2912, 2922-2931): nothing is kept when there
is both text and other content. -/
def labelKids (hot : Bool) (level : Nat) (l : Label) : List Elt :=
  let data := Names.strip (labelData l)
  let children := labelChildren hot level l
  if !data.isEmpty && !children.isEmpty then []
  else if !data.isEmpty then [.text data]
  else children

/-- `ReadIdentifier(value,RESPONSE_PREFIX)` (imsqtiv1.py:2241, 2880). -/
def readIdent (value : Str) : Str := (Names.readIdentifier V1.responsePrefix value).1

/-- `SetAttribute_rarea` (imsqtiv1.py:2861-2870); `none` is the initial `'default'`. -/
def readArea (rarea : Option Str) : Except Err (Option Shapes.V1Shape) :=
  match rarea with
  | none => .ok none
  | some v =>
    let shape := Py.lower (Names.strip v)
    if shape = "rectangle".toList then .ok (some .rect)
    else if shape = "ellipse".toList then .ok (some .ellipse)
    else if shape = "bounded".toList then .ok (some .bounded)
    else .error .qtiException

/-- The names of shapes in the migrated item (imsqtiv1.py:190-210, 2863-2868). -/
def shapeText : Shapes.Shape → Str
  | .circle => "circle".toList
  | .default => "default".toList
  | .ellipse => "ellipse".toList
  | .poly => "poly".toList
  | .rect => "rect".toList

/-- `ConvertAreaCoords(self.shape,self.data)` (imsqtiv1.py:2936); the shape `'default'` keeps its coordinates. -/
def labelArea (shape : Option Shapes.V1Shape) (data : Str) : Except Err (Str × List Int) :=
  match shape with
  | some s => Shapes.convertAreaCoords s data >>= fun r => .ok (shapeText r.1, r.2)
  | none => Shapes.areaNums data [] [] false >>= fun cs => .ok ("default".toList, cs)

/-- `string.split(string.join(string.split(value),''),',')` (imsqtiv1.py:2882-2884). -/
def readGroup (value : Option Str) : List Str :=
  match value with
  | none => []
  | some v => Py.split ',' (v.filter fun c => !Names.isSpace c)

/-- `ResponseLabel.CloseObject` (imsqtiv1.py:2898-2947), with the reading of its attributes. -/
def closeLabel (thing : Option LabelThing) (hot : Bool) (level : Nat) (l : Label) : Except Err (Option Made) :=
  readArea l.rarea >>= fun shape =>
  match thing with
  | some .simple =>
    .ok (some (.elt (.simpleChoice {} (readIdent l.ident) (some (!flag true l.rshuffle)) (labelKids hot level l))))
  | some .associable =>
    .ok (some (.elt (.simpleAssociableChoice (readIdent l.ident) (some (!flag true l.rshuffle))
      ((readCount l.matchMax).getD 0) (readGroup l.matchGroup) (labelKids hot level l))))
  | some .hotspot =>
    labelArea shape (labelData l) >>= fun a => extractTexts (labelChildren hot level l) >>= fun text =>
    .ok (some (.elt (.hotspotChoice (readIdent l.ident) none a.1 a.2 (if text.isEmpty then none else some text))))
  | some .string => .ok (some (.blank (readIdent l.ident)))
  | none => .ok none

/-- The contents of `flow_label`: labels, in any number of `flow_label`s (imsqtiv1.py:2953-2977). -/
inductive LabelTree where
  | label (l : Label)
  | flow (kids : List LabelTree)

mutual
/-- The labels in the order in which `FlowLabel.AppendLabel` hands them on (imsqtiv1.py:2972-2973). -/
def LabelTree.labels : LabelTree → List Label
  | .label l => [l]
  | .flow kids => LabelTree.labelsAll kids
/-- The same for a list. -/
def LabelTree.labelsAll : List LabelTree → List Label
  | [] => []
  | k :: ks => LabelTree.labels k ++ LabelTree.labelsAll ks
end

/-! ## Renderings -/

/-- The contents of `render_*`. -/
inductive RItem where
  | mat (m : Material)
  | labels (t : LabelTree)

/-- The elements `render_*` with their attributes. -/
inductive Render where
  /-- `render_choice` (imsqtiv1.py:2444-2451) -/
  | choice (shuffle maxnumber : Option Str)
  /-- `render_hotspot` (imsqtiv1.py:2502-2509) -/
  | hotspot (maxnumber : Option Str)
  /-- `render_slider` (imsqtiv1.py:2581-2593); a number is `some none` when the attribute cannot be read -/
  | slider (orientation : Option Str) (lower upper step startval : Option (Option FloatVal)) (steplabel : Option Str)
  /-- `render_fib` (imsqtiv1.py:2675-2688) -/
  | fib (fibtype rows columns maxchars prompt maxnumber : Option Str)

/-- The elements `response_*`. -/
inductive RKind where
  | lid | xy | str
  | num (numtype : Option Str)
  | grp

/-- Interactions before they are bound to a response (imsqti.py:773-1190). -/
inductive Inter where
  | choice (cls : Option Str) (shuffle : Bool) (max : Int) (choices : List Elt)
  | order (shuffle : Bool) (choices : List Elt)
  | associate (shuffle : Bool) (max : Int) (choices : List Elt)
  | extended (cls : Option Str) (a : StringAtts) (maxStrings : Option Int)
  | textEntry (cls : Option Str) (a : StringAtts)
  | hotspot (max : Int) (graphic : Elt) (choices : List Elt)
  | selectPoint (max : Int) (graphic : Elt)
  | graphicOrder (graphic : Elt) (choices : List Elt)
  | slider (lower upper : PyNum) (step : Option PyNum) (stepLabel : Option Bool) (orientation : Str)

/-- `isinstance(interaction,BlockInteraction)` (imsqti.py:783-1190). -/
def Inter.isBlock : Inter → Bool
  | .textEntry .. => false
  | _ => true

/-- The interaction bound to a response, with the elements of its prompt (imsqti.py:777-807).  The prompt of a
`GraphicOrderInteraction` is never written (imsqti.py:1098-1106), so it has no place in `Elt`. -/
def Inter.elt (resp : Str) (prompt : List Elt) : Inter → Elt
  | .choice cls shuffle max choices => .choiceInteraction resp { classid := cls } shuffle max prompt choices
  | .order shuffle choices => .orderInteraction resp {} shuffle prompt choices
  | .associate shuffle max choices => .associateInteraction resp {} shuffle max prompt choices
  | .extended cls a maxStrings => .extendedText resp { classid := cls } a maxStrings prompt
  | .textEntry cls a => .textEntry resp { classid := cls } a
  | .hotspot max graphic choices => .hotspot resp {} max prompt graphic choices
  | .selectPoint max graphic => .selectPoint resp {} max prompt graphic
  | .graphicOrder graphic choices => .graphicOrder resp {} graphic choices
  | .slider lower upper step stepLabel orientation =>
    .slider resp {} lower upper step stepLabel (some orientation) none prompt

/-- The part of a `ResponseThing` that its contents change (imsqtiv1.py:2218-2223). -/
structure RespSt where
  pre : List Elt := []
  post : List Elt := []
  inter : Option Inter := none
  baseType : Base
  default : Option FloatVal := none
  index : Nat := 0

/-- `ResponseThing.AppendElement` (imsqtiv1.py:2246-2250). -/
def RespSt.append (r : RespSt) (e : Elt) : RespSt :=
  if r.inter.isSome then { r with post := r.post ++ [e] } else { r with pre := r.pre ++ [e] }

/-- The loop `for child in …: self.parent.AppendElement(child)`. -/
def RespSt.appendAll (r : RespSt) (es : List Elt) : RespSt := es.foldl RespSt.append r

/-- The state of the item: the variables (`Verif.Item.St`), the declarations made, the interactions by the identifier
of their response (`self.interactions`, imsqtiv1.py:576-579) and the response rules added by the presentation. -/
structure ItemSt where
  vars : Item.St := Item.St.init
  decls : List Decl := []
  bound : List (Str × Inter) := []
  rules : List ItemXml.Rule := []

/-- `DeclareResponse` (imsqtiv1.py:542-554): a default value that is zero is not kept. -/
def declare (s : ItemSt) (identifier : Str) (card : Card) (base : Base) (dflt : Option FloatVal) :
    Except Err ItemSt :=
  Item.declareResponse .responseDeclaration s.vars identifier >>= fun r =>
  .ok { s with
    vars := r.2
    decls := s.decls ++ [{ outcome := false, identifier := r.1, cardinality := card.text, baseType := base.text,
                           default := match dflt with
                             | none => none
                             | some d => if d.val = 0 then none else some { value := d.text } }] }

/-- `DeclareFakeResponse` (imsqtiv1.py:556-568). -/
def declareFake (s : ItemSt) (identifier : Str) (card : Card) (base : Base) : Except Err ItemSt :=
  Item.declareResponse .outcomeDeclaration s.vars identifier >>= fun r =>
  .ok { s with
    vars := r.2
    decls := s.decls ++ [{ outcome := true, identifier := r.1, cardinality := card.text, baseType := base.text }] }

/-- `GetResponse(identifier).GetIdentifier()` (imsqtiv1.py:570-574); `None` has no identifier. -/
def responseName (s : ItemSt) (identifier : Str) : Except Err Str :=
  Item.getResponse s.vars identifier >>= fun o =>
  match o with
  | some name => .ok name
  | none => .error .attributeError

/-- `BindResponse` (imsqtiv1.py:576-579): the identifier the interaction is bound to. -/
def bind (s : ItemSt) (i : Inter) (identifier : Str) : Except Err (Str × ItemSt) :=
  responseName s identifier >>= fun name => .ok (name, { s with bound := Dict.set s.bound name i })

/-- What a `RenderThing` collects (imsqtiv1.py:2409-2411). -/
structure RenderSt where
  pre : List Elt := []
  labels : List Elt := []
  post : List Elt := []

/-- `RenderThing.AppendElement` (imsqtiv1.py:2424-2428). -/
def RenderSt.append (r : RenderSt) (e : Elt) : RenderSt :=
  if r.labels.isEmpty then { r with pre := r.pre ++ [e] } else { r with post := r.post ++ [e] }

/-- `RenderThing.AppendLabel` (imsqtiv1.py:2430-2435). -/
def RenderSt.appendLabel (r : RenderSt) (e : Elt) : RenderSt := { r with labels := r.labels ++ [e], post := [] }

/-- The labels of a `render_*` element other than `render_fib`, closed in turn. -/
def collectLabels (thing : Option LabelThing) (hot : Bool) (level : Nat) :
    List Label → RenderSt → Except Err RenderSt
  | [], r => .ok r
  | l :: ls, r =>
    closeLabel thing hot level l >>= fun m =>
    match m with
    | some (.elt e) => collectLabels thing hot level ls (r.appendLabel e)
    | some (.blank _) => .error .unmodelled
    | none => collectLabels thing hot level ls r

/-- The contents of a `render_*` element other than `render_fib`. -/
def collect (thing : Option LabelThing) (hot : Bool) (level : Nat) : List RItem → RenderSt → Except Err RenderSt
  | [], r => .ok r
  | .mat m :: is, r => collect thing hot level is ((materialElts hot m).foldl RenderSt.append r)
  | .labels t :: is, r => collectLabels thing hot level t.labels r >>= collect thing hot level is

/-- `RenderChoice.__init__` (imsqtiv1.py:2452-2469): the interaction, as a function of its choices, and the class of
the labels. -/
def choiceThing (kind : RKind) (card : Card) (shuffle : Bool) (max : Option Int) :
    Option (LabelThing × (List Elt → Inter)) :=
  match kind, card with
  | .lid, .ordered => some (.simple, .order shuffle)
  | .lid, _ => some (.simple, .choice none shuffle (max.getD 1))
  | .grp, .ordered => none
  | .grp, _ => some (.associable, .associate shuffle (max.getD 1))
  | _, _ => none

/-- `RenderChoice` (imsqtiv1.py:2444-2496). -/
def renderChoice (kind : RKind) (card : Card) (level : Nat) (shuffle maxnumber : Option Str) (items : List RItem)
    (r : RespSt) : Except Err RespSt :=
  let thing := choiceThing kind card (flag false shuffle) (readCount maxnumber)
  collect (thing.map (·.1)) false level items {} >>= fun c =>
  let r := r.appendAll c.pre
  let r := match thing with | some t => { r with inter := some (t.2 c.labels) } | none => r
  .ok (r.appendAll c.post)

/-- The interactions of `RenderHotspot`. -/
inductive HotThing where
  | order | hotspot | point
deriving DecidableEq, Repr

/-- `RenderHotspot.__init__` (imsqtiv1.py:2510-2526); `self.BadInteraction` does not exist in this class. -/
def hotThing (kind : RKind) (card : Card) : Except Err (Option HotThing × Option LabelThing) :=
  match kind, card with
  | .lid, .ordered => .ok (some .order, some .hotspot)
  | .lid, _ => .ok (some .hotspot, some .hotspot)
  | .xy, .ordered => .ok (none, none)
  | .xy, _ => .ok (some .point, none)
  | _, _ => .error .attributeError

/-- The interaction made for an image (imsqtiv1.py:2554-2573). -/
def hotInter (max : Option Int) (graphic : Elt) (labels : List Elt) : HotThing → Inter
  | .hotspot => .hotspot (max.getD 1) graphic labels
  | .order => .graphicOrder graphic labels
  | .point => .selectPoint (max.getD 1) graphic

/-- `RenderHotspot` (imsqtiv1.py:2502-2575). -/
def renderHotspot (kind : RKind) (card : Card) (level : Nat) (maxnumber : Option Str) (items : List RItem)
    (r : RespSt) : Except Err RespSt :=
  hotThing kind card >>= fun things =>
  collect things.2 true level items {} >>= fun c =>
  imagesIn c.pre >>= fun a =>
  imagesIn c.post >>= fun b =>
  let r := r.appendAll a.2
  let r := match (a.1 ++ b.1).head?, things.1 with
    | some image, some t => { r with inter := some (hotInter (readCount maxnumber) image c.labels t) }
    | _, _ => r
  .ok (r.appendAll b.2)

/-- `int(x)` of a float: towards zero. -/
def truncRat (q : Rat) : Int := if q < 0 then -(-q).floor else q.floor

/-- A float as it is written. -/
def floatNum (f : FloatVal) : PyNum := ⟨f.text, decide (f.val = 0)⟩

/-- An integer as it is written. -/
def intNum (n : Int) : PyNum := ⟨strInt n, decide (n = 0)⟩

/-- A bound of a slider (imsqtiv1.py:2596-2597, 2630-2634): the initial value is an integer, an attribute that cannot be
read counts as `0`, and for an integer response the float is truncated. -/
def sliderBound (integer : Bool) (dflt : Int) (attr : Option (Option FloatVal)) : PyNum :=
  match attr with
  | none => intNum dflt
  | some none => intNum 0
  | some (some f) => if integer then intNum (truncRat f.val) else floatNum f

/-- `self.step` (imsqtiv1.py:2598, 2610-2611, 2636-2637, 2656-2657): not set when it is zero. -/
def sliderStep (integer : Bool) (attr : Option (Option FloatVal)) : Option PyNum :=
  match attr with
  | some (some f) =>
    let n := if integer then intNum (truncRat f.val) else floatNum f
    if n.zero then none else some n
  | _ => none

/-- `self.default` of a slider (imsqtiv1.py:2600, 2639-2640); an attribute that cannot be read counts as `0`. -/
def sliderDefault (startval : Option (Option FloatVal)) : Option FloatVal :=
  match startval with
  | none => none
  | some none => some ⟨0, "0".toList⟩
  | some (some f) => some f

/-- `SetAttribute_orientation` (imsqtiv1.py:2595, 2622-2628). -/
def readOrientation (orientation : Option Str) : Str :=
  match orientation with
  | none => "horizontal".toList
  | some v => if Py.lower (Names.strip v) = "vertical".toList then "vertical".toList else "horizontal".toList

/-- `RenderSlider.__init__` (imsqtiv1.py:2594-2620): the class of the labels; `int(None)` is a `TypeError`.  The first
component says whether there is an interaction. -/
def sliderThing (kind : RKind) (card : Card) (base : Base) (startval : Option (Option FloatVal)) :
    Except Err (Bool × Option LabelThing) :=
  match kind, card with
  | .num _, .single =>
    if base = .integer ∧ (sliderDefault startval).isNone then .error .typeError else .ok (true, none)
  | .num _, _ => .ok (false, none)
  | .lid, .single => .ok (true, some .simple)
  | .lid, _ => .ok (false, none)
  | _, _ => .ok (false, none)

/-- The slider or the choices (imsqtiv1.py:2652-2666).  `self.steplabel` exists only when the attribute was given, and
what is set is `self.stepLabel`, which is always `0`. -/
def sliderInter (kind : RKind) (base : Base) (orientation : Option Str)
    (lower upper step : Option (Option FloatVal)) (steplabel : Option Str) (labels : List Elt) : Except Err Inter :=
  match kind with
  | .num _ =>
    match steplabel with
    | none => .error .attributeError
    | some v =>
      let integer := decide (base = .integer)
      .ok (.slider (sliderBound integer 0 lower) (sliderBound integer 100 upper) (sliderStep integer step)
        (if (readYesNo v).isSome then some false else none) (readOrientation orientation))
  | _ => .ok (.choice (some "slider".toList) false 1 labels)

/-- `RenderSlider` (imsqtiv1.py:2581-2669). -/
def renderSlider (kind : RKind) (card : Card) (level : Nat) (orientation : Option Str)
    (lower upper step startval : Option (Option FloatVal)) (steplabel : Option Str) (items : List RItem) (r : RespSt) :
    Except Err RespSt :=
  sliderThing kind card r.baseType startval >>= fun thing =>
  collect thing.2 false level items {} >>= fun c =>
  let r := r.appendAll c.pre
  (if thing.1 then
    sliderInter kind r.baseType orientation lower upper step steplabel c.labels >>= fun i =>
    .ok { r with inter := some i
                 default := match kind with | .num _ => r.default | _ => sliderDefault startval }
  else .ok r) >>= fun r =>
  .ok (r.appendAll c.post)

/-! ### `render_fib` -/

/-- `self.children` of a `RenderFib` (imsqtiv1.py:2764-2769). -/
abbrev FibChild := Made

/-- The labels inside a `render_fib`, closed in turn. -/
def fibLabels (level : Nat) : List Label → Except Err (List FibChild)
  | [] => .ok []
  | l :: ls => closeLabel (some .string) false level l >>= fun m => fibLabels level ls >>= fun r => .ok (m.toList ++ r)

/-- The contents of a `render_fib`. -/
def fibChildren (level : Nat) : List RItem → Except Err (List FibChild)
  | [] => .ok []
  | .mat m :: is => fibChildren level is >>= fun r => .ok ((materialElts false m).map .elt ++ r)
  | .labels t :: is => fibLabels level t.labels >>= fun a => fibChildren level is >>= fun r => .ok (a ++ r)

/-- Is a child a label? `type(child) in StringTypes` (imsqtiv1.py:2779, 2792). -/
def Made.isBlank : Made → Bool
  | .blank _ => true
  | .elt _ => false

/-- `SetAttribute_fibtype` (imsqtiv1.py:2690, 2729-2738). -/
def readFibtype (fibtype : Option Str) : Base :=
  match fibtype with
  | none => .string
  | some value =>
    let v := Py.lower (Names.strip value)
    if v = "string".toList then .string
    else if v = "integer".toList then .integer
    else if v = "decimal".toList ∨ v = "scientific".toList then .float
    else .string

/-- `self.maxchars` after `__init__` (imsqtiv1.py:2691-2693, 2714-2721): `none` when it is zero. -/
def fibLength (rows columns maxchars : Option Str) : Option Int :=
  let read (dflt : Int) (a : Option Str) : Int := match a with | none => dflt | some v => (readInteger v (some 0)).getD 0
  let m := read 0 maxchars
  let n := if m ≠ 0 then m else read 1 rows * read 0 columns
  if n = 0 then none else some n

/-- `RenderFib.__init__` (imsqtiv1.py:2689-2723): the type of the text and the base type of the response;
`self.BadInteraction` does not exist in this class. -/
def fibTypes (forceFloat : Bool) (kind : RKind) (fibtype : Option Str) (base : Base) : Except Err (Base × Base) :=
  let fib := if forceFloat then .float else readFibtype fibtype
  let base := if forceFloat then .float else base
  match kind with
  | .num _ => if fib ≠ base then .ok (.float, .float) else .ok (fib, base)
  | .str => if fib ≠ .string then .ok (.string, base) else .ok (fib, base)
  | _ => .error .attributeError

/-- The attributes of a text interaction (imsqtiv1.py:2781-2786, 2794-2799, 2819-2824). -/
def fibAtts (fib : Base) (length : Option Int) : StringAtts :=
  { base := if fib ≠ .string then some 10 else none, expectedLength := length }

/-- The children of a `render_fib` in a response of single cardinality (imsqtiv1.py:2777-2789). -/
def fibSingle (i : Inter) : List FibChild → RespSt → RespSt
  | [], r => r
  | .blank _ :: cs, r => fibSingle i cs { r with inter := some i }
  | .elt e :: cs, r => fibSingle i cs (r.append e)

/-- `GetIndexedIdentifier` (imsqtiv1.py:2261-2263). -/
def indexedIdent (ident : Str) (n : Nat) : Str := ident ++ "_INDEX_".toList ++ Py.strNat n

/-- The children of a `render_fib` in a response of another cardinality (imsqtiv1.py:2790-2806). -/
def fibIndexed (ident : Str) (i : Inter) : List FibChild → RespSt → ItemSt → Except Err (RespSt × ItemSt)
  | [], r, s => .ok (r, s)
  | .blank _ :: cs, r, s =>
    let id := indexedIdent ident (r.index + 1)
    declare s id .single r.baseType none >>= fun s =>
    bind s i id >>= fun b =>
    fibIndexed ident i cs (RespSt.append { r with index := r.index + 1 } (i.elt b.1 [])) b.2
  | .elt e :: cs, r, s => fibIndexed ident i cs (r.append e) s

/-- `maxStrings` of an extended text interaction (imsqtiv1.py:2810-2818). -/
def fibMax (card : Card) (max : Option Int) (labels : Nat) : Option Int :=
  match max with
  | some n => some n
  | none => if card = .single then none else if labels ≠ 0 then some labels else some 1

/-- `self.classid` (imsqtiv1.py:2694, 2750-2752), if it is not empty. -/
def fibClass (prompt : Option Str) : Option Str :=
  match prompt with
  | none => none
  | some v => if (Names.strip v).isEmpty then none else some (Names.strip v)

/-- `RenderFib` (imsqtiv1.py:2675-2825). -/
def renderFib (forceFloat : Bool) (kind : RKind) (card : Card) (ident : Str) (level : Nat)
    (fibtype rows columns maxchars prompt maxnumber : Option Str) (items : List RItem) (r : RespSt) (s : ItemSt) :
    Except Err (RespSt × ItemSt) :=
  fibTypes forceFloat kind fibtype r.baseType >>= fun t =>
  let r := { r with baseType := t.2 }
  fibChildren level items >>= fun cs =>
  let labels := cs.countP Made.isBlank
  let atts := fibAtts t.1 (fibLength rows columns maxchars)
  let cls := fibClass prompt
  if labels ≠ 0 ∧ cs.length > labels then
    if card = .single then .ok (fibSingle (.textEntry cls atts) cs r, s)
    else fibIndexed ident (.textEntry cls atts) cs r s
  else .ok ({ r with inter := some (.extended cls atts (fibMax card (readCount maxnumber) labels)) }, s)

/-! ## Responses -/

/-- The contents of `response_*`. -/
inductive RespItem where
  | mat (m : Material)
  | render (k : Render) (items : List RItem)

/-- `response_lid`, `response_xy`, `response_str`, `response_num`, `response_grp`. -/
structure Response where
  kind : RKind
  ident : Str
  card : Card := .single
  items : List RespItem

/-- `self.baseType` when the element is opened (imsqtiv1.py:2221, 2325, 2340, 2355, 2370-2381, 2398). -/
def RKind.base : RKind → Base
  | .lid => .identifier
  | .xy => .point
  | .str => .string
  | .num none => .identifier
  | .num (some v) => if Py.lower v = "integer".toList then .integer else .float
  | .grp => .pair

/-- A `render_*` element inside a response. -/
def renderOne (forceFloat : Bool) (kind : RKind) (card : Card) (ident : Str) (level : Nat) (k : Render)
    (items : List RItem) (r : RespSt) (s : ItemSt) : Except Err (RespSt × ItemSt) :=
  match k with
  | .choice shuffle maxnumber => renderChoice kind card level shuffle maxnumber items r >>= fun r => .ok (r, s)
  | .hotspot maxnumber => renderHotspot kind card level maxnumber items r >>= fun r => .ok (r, s)
  | .slider orientation lower upper step startval steplabel =>
    renderSlider kind card level orientation lower upper step startval steplabel items r >>= fun r => .ok (r, s)
  | .fib fibtype rows columns maxchars prompt maxnumber =>
    renderFib forceFloat kind card ident level fibtype rows columns maxchars prompt maxnumber items r s

/-- The contents of a response, in turn. -/
def respItems (forceFloat : Bool) (kind : RKind) (card : Card) (ident : Str) (level : Nat) :
    List RespItem → RespSt → ItemSt → Except Err (RespSt × ItemSt)
  | [], r, s => .ok (r, s)
  | .mat m :: is, r, s => respItems forceFloat kind card ident level is (r.appendAll (materialElts false m)) s
  | .render k items :: is, r, s =>
    renderOne forceFloat kind card ident level k items r s >>= fun q =>
    respItems forceFloat kind card ident level is q.1 q.2

/-- The identifiers of the indexed responses, in order (imsqtiv1.py:2277-2281). -/
def indexNames (s : ItemSt) (ident : Str) : Nat → Nat → Except Err (List Str)
  | 0, _ => .ok []
  | n + 1, i => responseName s (indexedIdent ident i) >>= fun a => indexNames s ident n (i + 1) >>= fun r => .ok (a :: r)

/-- The expression that collects the indexed responses (imsqtiv1.py:2272-2281). -/
def aggregate (card : Card) (names : List Str) : XExpr :=
  .multi (if card = .ordered then "ordered".toList else "multiple".toList) (names.map .variable)

/-- Is the text before an interaction made its prompt (imsqtiv1.py:2284-2291)? -/
def isPrompt (i : Option Inter) (pre : List Elt) : Bool :=
  match i with
  | some j => j.isBlock && !pre.isEmpty && pre.all isInline
  | none => false

/-- `ResponseThing.CloseObject` (imsqtiv1.py:2265-2307) without the closing of the flow around it: the elements
appended to the parent. -/
def closeResponse (card : Card) (ident : Str) (r : RespSt) (s : ItemSt) : Except Err (List Elt × ItemSt) :=
  if r.index ≠ 0 then
    declareFake s ident card r.baseType >>= fun s =>
    responseName s ident >>= fun outcome =>
    indexNames s ident r.index 1 >>= fun names =>
    .ok (r.pre ++ r.post, { s with rules := s.rules ++ [.setOutcome outcome (aggregate card names)] })
  else
    let prompt := isPrompt r.inter r.pre
    declare s ident card r.baseType r.default >>= fun s =>
    match r.inter with
    | some i =>
      bind s i ident >>= fun b =>
      .ok ((if prompt then [] else r.pre) ++ [i.elt b.1 (if prompt then [.prompt r.pre] else [])] ++ r.post, b.2)
    | none => .ok (r.pre ++ r.post, s)

/-- A whole `response_*` element (imsqtiv1.py:2208-2399): the elements appended to the flow around it. -/
def response (forceFloat : Bool) (level : Nat) (q : Response) (s : ItemSt) : Except Err (List Elt × ItemSt) :=
  respItems forceFloat q.kind q.card (readIdent q.ident) level q.items { baseType := q.kind.base } s >>= fun r =>
  closeResponse q.card (readIdent q.ident) r.1 r.2

/-! ## Flow and presentation -/

/-- The contents of `presentation` and `flow`. -/
inductive FlowItem where
  | flow (cls : Option Str) (kids : List FlowItem)
  | mat (m : Material)
  | resp (q : Response)

mutual
/-- An element inside a `flow` of the given level (imsqtiv1.py:1509-1573): what it appends to it. -/
def flowItem (ff : Bool) (level : Nat) : FlowItem → ItemSt → Except Err (List Elt × ItemSt)
  | .flow cls kids, s => flowItems ff (level + 1) kids s >>= fun r => .ok (closeFlow cls (level + 1) r.1, r.2)
  | .mat m, s => .ok (materialElts false m, s)
  | .resp q, s => response ff level q s
/-- The same for a list. -/
def flowItems (ff : Bool) (level : Nat) : List FlowItem → ItemSt → Except Err (List Elt × ItemSt)
  | [], s => .ok ([], s)
  | k :: ks, s =>
    flowItem ff level k s >>= fun a => flowItems ff level ks a.2 >>= fun b => .ok (a.1 ++ b.1, b.2)
end

/-- An element directly inside `presentation`: a flow of level 0, made up for material and responses
(imsqtiv1.py:1521-1524, 1622-1625, 2227-2231). -/
def topItem (ff : Bool) (k : FlowItem) (s : ItemSt) : Except Err (List Elt × ItemSt) :=
  match k with
  | .flow cls kids => flowItems ff 0 kids s >>= fun r => .ok (closeFlow cls 0 r.1, r.2)
  | .mat m => .ok (closeFlow none 0 (materialElts false m), s)
  | .resp q => response ff 0 q s >>= fun r => .ok (closeFlow none 0 r.1, r.2)

/-- `presentation` (imsqtiv1.py:1373-1412): the blocks appended to the item body; what is not a block is dropped. -/
def presentation (ff : Bool) : List FlowItem → ItemSt → Except Err (List Elt × ItemSt)
  | [], s => .ok ([], s)
  | k :: ks, s =>
    topItem ff k s >>= fun a => presentation ff ks a.2 >>= fun b => .ok (a.1.filter isBlock ++ b.1, b.2)

/-! ## Rubrics, objectives, feedback -/

/-- The blocks of `rubric` and `objectives` (imsqtiv1.py:1446-1448, 1482-1487). -/
def blocks (kids : List MatFlow) : List Elt := (kids.flatMap (wrappedElts false 0)).filter isBlock

/-- `view` of `rubric` and `objectives` (imsqtiv1.py:1427, 1470, 1477-1478). -/
def readViews (view : Option Str) : Str :=
  match view with
  | none => "all".toList
  | some v => Names.readView v

/-- `rubric` in an item (imsqtiv1.py:1415-1453). -/
def rubric (view : Option Str) (kids : List MatFlow) : Elt :=
  if readViews view = "all".toList then .div { classid := some "rubric".toList } (blocks kids)
  else .rubric {} [readViews view] (blocks kids)

/-- `objectives` in an item (imsqtiv1.py:1456-1500): a rubric, or a description for the metadata. -/
def objectives (view : Option Str) (kids : List MatFlow) : Except Err (Elt ⊕ Str) :=
  if readViews view = "all".toList then extractTexts (blocks kids) >>= fun t => .ok (.inr t)
  else .ok (.inl (.rubric {} [readViews view] (blocks kids)))

/-- The contents of `itemfeedback`. -/
inductive FbItem where
  | content (c : MatFlow)
  | solution (style : Option Str) (kids : List MatFlow)
  | hint (style : Option Str) (kids : List MatFlow)

/-- The class of the `div` for a solution or hint (imsqtiv1.py:3028-3037, 3080-3089). -/
def styleClass (name : String) (style : Option Str) : Str :=
  match style with
  | none => name.toList
  | some v =>
    let s := Py.lower (Names.strip v)
    if s ≠ "complete".toList then name.toList ++ ['.'] ++ s else name.toList

/-- `flow_mat` and `material` of `hintmaterial`: `HintMaterial` is not among the classes whose `material` is wrapped
(imsqtiv1.py:1627). -/
def hintElts : MatFlow → List Elt
  | .mat m => materialElts false m
  | .flow cls kids => innerElts false 0 (.flow cls kids)

/-- The elements appended to the feedback (imsqtiv1.py:3004-3127). -/
def feedbackElts : FbItem → List Elt
  | .content c => wrappedElts false 0 c
  | .solution style kids =>
    [.div { classid := some (styleClass "solution" style) } (kids.flatMap (wrappedElts false 0))]
  | .hint style kids => [.div { classid := some (styleClass "hint" style) } (kids.flatMap hintElts)]

/-- `FEEDBACK_PREFIX` (imsqtiv1.py). -/
def feedbackPrefix : Str := "FEEDBACK_".toList

/-- `itemfeedback` (imsqtiv1.py:2980-3010). -/
def itemFeedback (ident : Str) (title : Option Str) (items : List FbItem) : Feedback :=
  { title := title, outcomeIdentifier := "FEEDBACK".toList, identifier := (Names.readIdentifier feedbackPrefix ident).1,
    showHide := "show".toList, kids := items.flatMap feedbackElts }

/-- The identifier of a `displayfeedback` (`SetAttribute_linkrefid`, imsqtiv1.py:3427-3428). -/
def readLink (linkrefid : Str) : Str := (Names.readIdentifier feedbackPrefix linkrefid).1

end Verif.Pres
