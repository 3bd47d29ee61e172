import Verif.Model.XmlUtils
import Verif.Model.Names

/-!
# Embedded HTML and flow grouping

`MatThing.ParseTextTokens`, `startElement`, `characters`, `endElement` and `MatText.MakeText`
(/repo/QTIMigration/lib/imsqtiv1.py:1728-1843, 2033-2073), the `AppendElement` methods of the element classes
(/repo/QTIMigration/lib/imsqti.py:344-710) and `FlowV1.CloseObject` (imsqtiv1.py:1532-1573).
-/

namespace Verif.Html

open Verif.XmlUtils (Token)

open Verif

/-! ## From tokens to element events -/

/-- A call of `startElement`, `characters` or `endElement`. -/
inductive Ev where
  | start (name : Str)
  | chars (s : Str)
  | stop (name : Str)
deriving DecidableEq, Repr

/-- The loop `while stack: …` that handles an end tag (imsqtiv1.py:1742-1750): the calls made, and the stack
afterwards. -/
def closeUntil (name : Str) : List Str → List Ev × List Str
  | [] => ([], [])
  | e :: st =>
    if e = name then ([.stop e], st)
    else
      let r := closeUntil name st
      (.stop e :: r.1, r.2)

/-- `t['.name'].lower() in ['hr','br','img']` (imsqtiv1.py:1734). -/
def isVoid (name : Str) : Bool := Py.lower name ∈ ["hr".toList, "br".toList, "img".toList]

/-- `ParseTextTokens` (imsqtiv1.py:1728-1757): the calls made for the tokens, given the stack of open tags.  Tags are
represented by their names; their attributes only affect the attributes of the created elements. -/
def events : List Token → List Str → List Ev
  | [], st => st.map .stop
  | .text s :: ts, st => .chars s :: events ts st
  | .emptyTag n _ :: ts, st => .start n :: .stop n :: events ts st
  | .stag n _ :: ts, st =>
    if isVoid n then .start n :: .stop n :: events ts st
    else .start n :: events ts (n :: st)
  | .etag n :: ts, st =>
    let r := closeUntil n st
    r.1 ++ events ts r.2

/-! ## From element events to elements -/

/-- The classes of the elements created (imsqtiv1.py:1762-1808).  Attributes are not modelled. -/
inductive Tag where
  /-- `SimpleInline(name)`; `cls` is the class given to the replacement of an unknown tag -/
  | inline (name : Str) (cls : Option Str)
  | div | p | pre | blockquote
  | list (name : Str)
  | li | br | img | table | tbody | tr
  | cell (name : Str)
deriving DecidableEq, Repr

/-- An element of the migrated item body. -/
inductive Node where
  | text (s : Str)
  | elem (tag : Tag) (kids : List Node)
deriving Repr

/-- `SimpleInlineNames` (imsqti.py:344-345). -/
def simpleInlineNames : List Str :=
  ["a", "abbr", "acronym", "b", "big", "cite", "code", "dfn", "em", "i", "kbd", "q", "samp", "small", "span",
   "strong", "sub", "sup", "tt", "var"].map String.toList

/-- The element created for a tag name (imsqtiv1.py:1760-1808); `none` for `qtihtml`. -/
def newElement (name : Str) : Option Tag :=
  let lc := Py.lower name
  if lc ∈ simpleInlineNames then some (.inline lc none)
  else if lc = "div".toList then some .div
  else if lc = "p".toList then some .p
  else if lc = "pre".toList then some .pre
  else if lc = "blockquote".toList then some .blockquote
  else if lc = "ul".toList ∨ lc = "ol".toList then some (.list lc)
  else if lc = "li".toList then some .li
  else if lc = "br".toList then some .br
  else if lc = "img".toList then some .img
  else if lc = "table".toList then some .table
  else if lc = "tbody".toList then some .tbody
  else if lc = "tr".toList then some .tr
  else if lc = "td".toList ∨ lc = "th".toList then some (.cell lc)
  else if lc = "qtihtml".toList then none
  else some (.inline "span".toList (some name))

/-- The text part common to the `AppendElement` methods of lists and tables: white space is dropped, other text
is an `AssertionError`. -/
def dropSpace (n : Node) (s : Str) : Except Err Node :=
  if Names.strip s = [] then .ok n else .error .assertionError

/-- `element.AppendElement(child)` (imsqti.py:353, 379, 397, 507, 542, 562, 639, 666, 686, 707).  `br` and `img` have
no such method. -/
def append (n c : Node) : Except Err Node :=
  match n with
  | .text _ => .error .attributeError
  | .elem tag kids =>
    match tag with
    | .br | .img => .error .attributeError
    | .list _ =>
      match c with
      | .text s => dropSpace n s
      | .elem .li _ => .ok (.elem tag (kids ++ [c]))
      | _ => .error .assertionError
    | .table =>
      match c with
      | .text s => dropSpace n s
      | .elem .tbody _ => .ok (.elem tag (kids ++ [c]))
      | .elem .tr _ =>
        match kids with
        | [] => .ok (.elem tag [.elem .tbody [c]])
        | .elem .tbody rows :: rest => .ok (.elem tag (.elem .tbody (rows ++ [c]) :: rest))
        | _ :: _ => .error .unmodelled
      | _ => .error .assertionError
    | .tbody =>
      match c with
      | .text s => dropSpace n s
      | .elem .tr _ => .ok (.elem tag (kids ++ [c]))
      | _ => .error .assertionError
    | .tr =>
      match c with
      | .text s => dropSpace n s
      | .elem (.cell _) _ => .ok (.elem tag (kids ++ [c]))
      | _ => .error .assertionError
    | _ => .ok (.elem tag (kids ++ [c]))

/-- `htmlElement`, `htmlStack`, `htmlData` (imsqtiv1.py:1992-1995) and what was appended to the parent object. -/
structure St where
  out : List Node := []
  stack : List Node := []
  elem : Option Node := none
  data : Str := []

/-- `startElement` (imsqtiv1.py:1759-1822). -/
def startElement (s : St) (name : Str) : Except Err St :=
  match newElement name with
  | none => .ok s
  | some tag =>
    (if s.data ≠ [] then
      match s.elem with
      | some e => append e (.text s.data) >>= fun e => .ok { s with elem := some e, data := [] }
      | none => .ok { s with out := s.out ++ [.text s.data], data := [] }
     else .ok s) >>= fun s =>
    match s.elem with
    | some e => .ok { s with stack := e :: s.stack, elem := some (.elem tag []) }
    | none => .ok { s with elem := some (.elem tag []) }

/-- `endElement` (imsqtiv1.py:1827-1843). -/
def endElement (s : St) (name : Str) : Except Err St :=
  if Py.lower name = "qtihtml".toList then
    if s.data ≠ [] then .ok { s with out := s.out ++ [.text s.data], data := [] } else .ok s
  else
    (if s.data ≠ [] then
      match s.elem with
      | some e => append e (.text s.data) >>= fun e => .ok { s with elem := some e, data := [] }
      | none => .error .attributeError
     else .ok s) >>= fun s =>
    match s.stack with
    | p :: rest =>
      match s.elem with
      | some e => append p e >>= fun p => .ok { s with stack := rest, elem := some p }
      | none => .error .attributeError
    | [] =>
      match s.elem with
      | some e => .ok { s with out := s.out ++ [e], elem := none }
      | none => .error .attributeError

/-- One call. -/
def call (s : St) : Ev → Except Err St
  | .start n => startElement s n
  | .chars c => .ok { s with data := s.data ++ c }
  | .stop n => endElement s n

/-- A sequence of calls. -/
def calls : List Ev → St → Except Err St
  | [], s => .ok s
  | e :: es, s => call s e >>= calls es

/-- The `text/html` branch of `MatText.MakeText` (imsqtiv1.py:2046-2056), after tokenizing: the elements appended
to the enclosing material. -/
def makeText (ts : List Token) : Except Err (List Node) :=
  calls (events ts []) {} >>= fun s => endElement s "qtihtml".toList >>= fun s => .ok s.out

/-! ## Flow grouping -/

/-- Children of a flow and elements created for it, over arbitrary pieces of content. -/
inductive FNode (α : Type) where
  /-- a piece of content; `inline` is `isinstance(child,Inline)` -/
  | piece (inline : Bool) (a : α)
  | p (cls : Option Str) (kids : List (FNode α))
  | div (cls : Str) (kids : List (FNode α))

/-- `isinstance(child,Inline)`. -/
def FNode.isInline {α} : FNode α → Bool
  | .piece b _ => b
  | _ => false

/-- The grouping loop (imsqtiv1.py:1556-1570); `para` is the open paragraph `p`. -/
def group {α} : List (FNode α) → Option (List (FNode α)) → List (FNode α)
  | [], none => []
  | [], some ks => [.p none ks]
  | c :: cs, para =>
    if c.isInline then group cs (some (para.getD [] ++ [c]))
    else
      match para with
      | some ks => .p none ks :: c :: group cs none
      | none => c :: group cs none

/-- `FlowV1.CloseObject` (imsqtiv1.py:1532-1573): the elements appended to the parent.  `flowclass` is the class
attribute when it is given, non-empty and not `block`. -/
def closeFlow {α} (flowclass : Option Str) (level : Nat) (children : List (FNode α)) : List (FNode α) :=
  if children.all FNode.isInline then [.p flowclass children]
  else
    match flowclass with
    | some c => [.div c (group children none)]
    | none =>
      if level ≠ 0 then [.div ("flow_".toList ++ Py.strNat level) (group children none)]
      else group children none

end Verif.Html
