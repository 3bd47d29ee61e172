import Verif.Model.XmlUtils

/-!
# Model of the writers of /repo/QTIMigration/lib/imsqti.py

Every `WriteXML` method is the text it writes to the file.  Objects are values of the types below;
`None` is `none`.  Simplifications: members that the code would fail on when they are `None` (the
response of an interaction, the graphic of a graphic interaction, the expression of a condition) are
always there; numbers whose `str` depends on floating point are given by that text; a prompt is a list
of at most one element.
-/

set_option linter.unusedVariables false

namespace Verif.ItemXml

open Verif Verif.Py Verif.XmlUtils

/-- `str(n)` of an integer. -/
def strInt (n : Int) : Str := if n < 0 then '-' :: strNat n.natAbs else strNat n.natAbs

/-- A number that is not an integer: its `str`, and whether it is zero (false in a test). -/
structure PyNum where
  text : Str
  zero : Bool

/-- `if x: f.write(head+XMLString(x)+'"')`: nothing for `None` and for the empty string. -/
def optAttr (head : String) (x : Option Str) : Str :=
  match x with
  | none => []
  | some [] => []
  | some (c :: t) => head.toList ++ xmlString (c :: t) ++ ['"']

/-- `if n: f.write(head+str(n)+'"')`: nothing for `None` and for zero. -/
def optInt (head : String) (n : Option Int) : Str :=
  match n with
  | none => []
  | some i => if i = 0 then [] else head.toList ++ strInt i ++ ['"']

/-- `"true"` and `"false"`. -/
def boolText (b : Bool) : Str := if b then "true".toList else "false".toList

/-- The attributes kept by `BodyElement` (imsqti.py:297-334). -/
structure Body where
  id : Option Str := none
  classid : Option Str := none
  language : Option Str := none
  label : Option Str := none

/-- `BodyElement.WriteXMLAttributes` (imsqti.py:323-331). -/
def bodyAttrs (b : Body) : Str :=
  optAttr " id=\"" b.id ++ optAttr " class=\"" b.classid ++ optAttr " xml:lang=\"" b.language ++
    optAttr " label=\"" b.label

/-- The attributes kept by `StringInteraction` (imsqti.py:974-995). -/
structure StringAtts where
  stringIdentifier : Option Str := none
  base : Option Int := none
  expectedLength : Option Int := none

/-- `if self.stringIdentifier: f.write(' stringIdentifier="'+…)`, which is not escaped
(imsqti.py:990-991). -/
def optRaw (head : String) (x : Option Str) : Str :=
  match x with
  | none => []
  | some [] => []
  | some (c :: t) => head.toList ++ (c :: t) ++ ['"']

/-- `StringInteraction.WriteXMLAttributes` (imsqti.py:989-995). -/
def stringAttrs (a : StringAtts) : Str :=
  optRaw " stringIdentifier=\"" a.stringIdentifier ++ optInt " base=\"" a.base ++
    optInt " expectedLength=\"" a.expectedLength

/-- The objects of an item body, one constructor for each class with a `WriteXML` method
(imsqti.py:347-1190). -/
inductive Elt where
  /-- `xhtml_text` (imsqti.py:760-771) -/
  | text (s : Str)
  /-- `xhtml_br` (imsqti.py:756-758) -/
  | br (b : Body)
  /-- `xhtml_img` (imsqti.py:719-754) -/
  | img (b : Body) (src : Option Str) (alt : Str) (longdesc : Option Str) (width height : Option Int)
  /-- `xhtml_object` (imsqti.py:599-628) -/
  | object (data type : Option Str) (width height : Option Int)
  /-- `SimpleInline` (imsqti.py:347-371) -/
  | inline (name : Str) (b : Body) (kids : List Elt)
  /-- `xhtml_div` (imsqti.py:502-520) -/
  | div (b : Body) (kids : List Elt)
  /-- `xhtml_blockquote` (imsqti.py:522-533) -/
  | blockquote (b : Body) (kids : List Elt)
  /-- `xhtml_ul` (imsqti.py:536-555) -/
  | list (name : Str) (b : Body) (kids : List Elt)
  /-- `xhtml_li` (imsqti.py:557-571) -/
  | li (b : Body) (kids : List Elt)
  /-- `xhtml_p` (imsqti.py:573-584) -/
  | p (b : Body) (kids : List Elt)
  /-- `xhtml_pre` (imsqti.py:586-597) -/
  | pre (b : Body) (kids : List Elt)
  /-- `xhtml_table` (imsqti.py:630-659) -/
  | table (b : Body) (summary : Option Str) (kids : List Elt)
  /-- `xhtml_tbody` (imsqti.py:661-679) -/
  | tbody (b : Body) (kids : List Elt)
  /-- `xhtml_tr` (imsqti.py:681-699) -/
  | tr (b : Body) (kids : List Elt)
  /-- `TableCell` (imsqti.py:701-716) -/
  | cell (name : Str) (b : Body) (kids : List Elt)
  /-- `RubricBlock` (imsqti.py:430-453) -/
  | rubric (b : Body) (view : List Str) (kids : List Elt)
  /-- `Prompt` (imsqti.py:796-807) -/
  | prompt (kids : List Elt)
  /-- `ChoiceInteraction` (imsqti.py:809-839) -/
  | choiceInteraction (resp : Str) (b : Body) (shuffle : Bool) (maxChoices : Int) (prompt kids : List Elt)
  /-- `OrderInteraction` (imsqti.py:841-866) -/
  | orderInteraction (resp : Str) (b : Body) (shuffle : Bool) (prompt kids : List Elt)
  /-- `AssociateInteraction` (imsqti.py:868-898) -/
  | associateInteraction (resp : Str) (b : Body) (shuffle : Bool) (maxAssociations : Int) (prompt kids : List Elt)
  /-- `SimpleChoice` (imsqti.py:922-938) -/
  | simpleChoice (b : Body) (identifier : Str) (fixed : Option Bool) (kids : List Elt)
  /-- `SimpleAssociableChoice` (imsqti.py:962-972) -/
  | simpleAssociableChoice (identifier : Str) (fixed : Option Bool) (matchMax : Int) (matchGroup : List Str)
      (kids : List Elt)
  /-- `ExtendedTextInteraction` (imsqti.py:997-1018) -/
  | extendedText (resp : Str) (b : Body) (a : StringAtts) (maxStrings : Option Int) (prompt : List Elt)
  /-- `TextEntryInteraction` (imsqti.py:1020-1031) -/
  | textEntry (resp : Str) (b : Body) (a : StringAtts)
  /-- `HotspotInteraction` (imsqti.py:1044-1068) -/
  | hotspot (resp : Str) (b : Body) (maxChoices : Int) (prompt : List Elt) (graphic : Elt) (kids : List Elt)
  /-- `SelectPointInteraction` (imsqti.py:1070-1088) -/
  | selectPoint (resp : Str) (b : Body) (maxChoices : Int) (prompt : List Elt) (graphic : Elt)
  /-- `GraphicOrderInteraction` (imsqti.py:1090-1106) -/
  | graphicOrder (resp : Str) (b : Body) (graphic : Elt) (kids : List Elt)
  /-- `HotspotChoice` (imsqti.py:1130-1139) -/
  | hotspotChoice (identifier : Str) (fixed : Option Bool) (shape : Str) (coords : List Int) (label : Option Str)
  /-- `SliderInteraction` (imsqti.py:1141-1190) -/
  | slider (resp : Str) (b : Body) (lower upper : PyNum) (step : Option PyNum) (stepLabel : Option Bool)
      (orientation : Option Str) (reverse : Option Bool) (prompt : List Elt)

/-- `Interaction.WriteXMLAttributes` (imsqti.py:780-781): not escaped. -/
def interactionAttrs (resp : Str) : Str := " responseIdentifier=\"".toList ++ resp ++ ['"']

/-- `Choice.WriteXMLAttributes` (imsqti.py:915-920). -/
def choiceAttrs (identifier : Str) (fixed : Option Bool) : Str :=
  " identifier=\"".toList ++ xmlString identifier ++ ['"'] ++
    (match fixed with
     | some true => " fixed=\"true\"".toList
     | some false => " fixed=\"false\"".toList
     | none => [])

/-- `if self.shuffle: … else: …` (imsqti.py:826-829, 854-857, 885-888). -/
def shuffleAttr (shuffle : Bool) : Str :=
  if shuffle then " shuffle=\"true\"".toList else " shuffle=\"false\"".toList

/-- `AssociableChoice.WriteXMLAttributes` (imsqti.py:956-960): the groups are not escaped. -/
def associableAttrs (identifier : Str) (fixed : Option Bool) (matchMax : Int) (matchGroup : List Str) : Str :=
  choiceAttrs identifier fixed ++ " matchMax=\"".toList ++ strInt matchMax ++ ['"'] ++
    (if matchGroup = [] then [] else " matchGroup=\"".toList ++ join ' ' matchGroup ++ ['"'])

/-- `Hotspot.WriteXMLAttributes` (imsqti.py:1121-1128). -/
def hotspotAttrs (shape : Str) (coords : List Int) (label : Option Str) : Str :=
  " shape=\"".toList ++ xmlString shape ++ ['"'] ++ " coords=\"".toList ++ join ',' (coords.map strInt) ++ ['"'] ++
    optAttr " hotspotLabel=\"" label

/-- The size attributes of images and objects (imsqti.py:624-627, 750-753): the height is written when
there is a width, and `str(None)` is `"None"`. -/
def sizeAttrs (width height : Option Int) : Str :=
  optInt " width=\"" width ++
    (match width with
     | none => []
     | some w => if w = 0 then [] else
       " height=\"".toList ++ (match height with | none => "None".toList | some h => strInt h) ++ ['"'])

/-- `if not (x is None)` around a truth value (imsqti.py:1175-1184). -/
def optBool (head : String) (x : Option Bool) : Str :=
  match x with
  | none => []
  | some b => head.toList ++ boolText b ++ ['"']

/-- The attributes of a slider after those of the body element (imsqti.py:1171-1184). -/
def sliderAttrs (lower upper : PyNum) (step : Option PyNum) (stepLabel : Option Bool) (orientation : Option Str)
    (reverse : Option Bool) : Str :=
  " lowerBound=\"".toList ++ lower.text ++ ['"'] ++ " upperBound=\"".toList ++ upper.text ++ ['"'] ++
    (match step with | none => [] | some s => " step=\"".toList ++ s.text ++ ['"']) ++
    optBool " stepLabel=\"" stepLabel ++ optAttr " orientation=\"" orientation ++ optBool " reverse=\"" reverse

/-- `self.view`, or `['all']` when there is none (imsqti.py:444-447). -/
def viewText (view : List Str) : Str := join ' ' (if view = [] then ["all".toList] else view)

mutual
/-- `WriteXML` of every class of body element; lines as given at the constructors of `Elt`. -/
def writeElt : Elt → Str
  | .text s => xmlString s
  | .br _ => "<br/>\n".toList
  | .img _ src alt longdesc width height =>
    "<img".toList ++ optAttr " src=\"" src ++ " alt=\"".toList ++ xmlString alt ++ ['"'] ++
      optAttr " longdesc=\"" longdesc ++ sizeAttrs width height ++ "/>".toList
  | .object data type width height =>
    "<object".toList ++ optAttr " data=\"" data ++ optAttr " type=\"" type ++ sizeAttrs width height ++ "/>".toList
  | .inline name b kids =>
    "\n<".toList ++ name ++ bodyAttrs b ++ ">".toList ++ writeElts kids ++ "</".toList ++ name ++ ">".toList
  | .div b kids => "\n<div".toList ++ bodyAttrs b ++ ">".toList ++ writeElts kids ++ "</div>".toList
  | .blockquote b kids =>
    "\n<blockquote".toList ++ bodyAttrs b ++ ">".toList ++ writeElts kids ++ "</blockquote>".toList
  | .list name b kids =>
    "\n<".toList ++ name ++ bodyAttrs b ++ ">".toList ++ writeElts kids ++ "</".toList ++ name ++ ">".toList
  | .li b kids => "\n<li".toList ++ bodyAttrs b ++ ">".toList ++ writeElts kids ++ "</li>".toList
  | .p b kids => "\n<p".toList ++ bodyAttrs b ++ ">".toList ++ writeElts kids ++ "</p>".toList
  | .pre b kids => "\n<pre".toList ++ bodyAttrs b ++ ">".toList ++ writeElts kids ++ "</pre>".toList
  | .table b summary kids =>
    "\n<table".toList ++ bodyAttrs b ++ optAttr " summary=\"" summary ++ ">".toList ++ writeElts kids ++
      "</table>".toList
  | .tbody b kids => "\n<tbody".toList ++ bodyAttrs b ++ ">".toList ++ writeElts kids ++ "</tbody>".toList
  | .tr b kids => "\n<tr".toList ++ bodyAttrs b ++ ">".toList ++ writeElts kids ++ "</tr>".toList
  | .cell name b kids =>
    "\n<".toList ++ name ++ bodyAttrs b ++ ">".toList ++ writeElts kids ++ "</".toList ++ name ++ ">".toList
  | .rubric b view kids =>
    "\n<rubricBlock".toList ++ bodyAttrs b ++ " view=\"".toList ++ viewText view ++ "\">".toList ++
      writeElts kids ++ "\n</rubricBlock>".toList
  | .prompt kids => "\n<prompt>".toList ++ writeElts kids ++ "</prompt>".toList
  | .choiceInteraction resp b shuffle maxChoices prompt kids =>
    "\n<choiceInteraction".toList ++ interactionAttrs resp ++ bodyAttrs b ++ shuffleAttr shuffle ++
      " maxChoices=\"".toList ++ strInt maxChoices ++ ['"'] ++ ">".toList ++ writeElts prompt ++ writeElts kids ++
      "\n</choiceInteraction>".toList
  | .orderInteraction resp b shuffle prompt kids =>
    "\n<orderInteraction".toList ++ interactionAttrs resp ++ bodyAttrs b ++ shuffleAttr shuffle ++ ">".toList ++
      writeElts prompt ++ writeElts kids ++ "\n</orderInteraction>".toList
  | .associateInteraction resp b shuffle maxAssociations prompt kids =>
    "\n<associateInteraction".toList ++ interactionAttrs resp ++ bodyAttrs b ++ shuffleAttr shuffle ++
      " maxAssociations=\"".toList ++ strInt maxAssociations ++ ['"'] ++ ">".toList ++ writeElts prompt ++
      writeElts kids ++ "\n</associateInteraction>".toList
  | .simpleChoice b identifier fixed kids =>
    "\n<simpleChoice".toList ++ bodyAttrs b ++ choiceAttrs identifier fixed ++ ">".toList ++ writeElts kids ++
      "</simpleChoice>".toList
  | .simpleAssociableChoice identifier fixed matchMax matchGroup kids =>
    "\n<simpleAssociableChoice".toList ++ associableAttrs identifier fixed matchMax matchGroup ++ ">".toList ++
      writeElts kids ++ "</simpleAssociableChoice>".toList
  | .extendedText resp b a maxStrings prompt =>
    "\n<extendedTextInteraction".toList ++ interactionAttrs resp ++ bodyAttrs b ++ stringAttrs a ++
      optInt " maxStrings=\"" maxStrings ++
      (match prompt with
       | [] => "/>".toList
       | q :: r => ">".toList ++ (writeElt q ++ writeElts r) ++ "</extendedTextInteraction>".toList)
  | .textEntry resp b a =>
    "\n<textEntryInteraction".toList ++ interactionAttrs resp ++ bodyAttrs b ++ stringAttrs a ++ "/>".toList
  | .hotspot resp b maxChoices prompt graphic kids =>
    "\n<hotspotInteraction".toList ++ interactionAttrs resp ++ bodyAttrs b ++
      optInt " maxChoices=\"" (some maxChoices) ++ ">".toList ++ writeElts prompt ++ writeElt graphic ++
      writeElts kids ++ "</hotspotInteraction>".toList
  | .selectPoint resp b maxChoices prompt graphic =>
    "\n<selectPointInteraction".toList ++ interactionAttrs resp ++ bodyAttrs b ++
      optInt " maxChoices=\"" (some maxChoices) ++ ">".toList ++ writeElts prompt ++ writeElt graphic ++
      "</selectPointInteraction>".toList
  | .graphicOrder resp b graphic kids =>
    "\n<graphicOrderInteraction".toList ++ interactionAttrs resp ++ bodyAttrs b ++ ">".toList ++ writeElt graphic ++
      writeElts kids ++ "</graphicOrderInteraction>".toList
  | .hotspotChoice identifier fixed shape coords label =>
    "\n<hotspotChoice".toList ++ choiceAttrs identifier fixed ++ hotspotAttrs shape coords label ++ "/>".toList
  | .slider resp b lower upper step stepLabel orientation reverse prompt =>
    "\n<sliderInteraction".toList ++ interactionAttrs resp ++ bodyAttrs b ++
      sliderAttrs lower upper step stepLabel orientation reverse ++
      (match prompt with
       | [] => "/>".toList
       | q :: r => ">".toList ++ (writeElt q ++ writeElts r) ++ "</sliderInteraction>".toList)
/-- `for element in self.elements: element.WriteXML(f)`. -/
def writeElts : List Elt → Str
  | [] => []
  | e :: es => writeElt e ++ writeElts es
end

/-! ## Expressions and rules -/

/-- The expression classes (imsqti.py:1295-1485).  `BinaryOperator` and `MultiOperator` carry the
name of the element; their subclasses only fix it. -/
inductive XExpr where
  /-- `BinaryOperator` (imsqti.py:1299-1309) -/
  | binary (name : Str) (left right : XExpr)
  /-- `MultiOperator` (imsqti.py:1311-1323) -/
  | multi (name : Str) (args : List XExpr)
  /-- `CustomOperator` (imsqti.py:1358-1370) -/
  | custom (opClass : Option Str) (args : List XExpr)
  /-- `NotOperator` (imsqti.py:1325-1332) -/
  | not (e : XExpr)
  /-- `StringMatchOperator` (imsqti.py:1412-1432) -/
  | stringMatch (left right : XExpr) (caseSensitive substring : Bool)
  /-- `VariableOperator` (imsqti.py:1434-1439) -/
  | variable (identifier : Str)
  /-- `IndexOperator` (imsqti.py:1441-1449) -/
  | index (e : XExpr) (n : Int)
  /-- `BaseValueOperator` (imsqti.py:1451-1457) -/
  | baseValue (baseType value : Str)
  /-- `IsNullOperator` (imsqti.py:1459-1466) -/
  | isNull (e : XExpr)
  /-- `NullOperator` (imsqti.py:1468-1470) -/
  | null
  /-- `InsideOperator` (imsqti.py:1472-1485) -/
  | inside (e : XExpr) (shape : Str) (coords : List Int)

mutual
/-- `WriteXML` of every expression class; lines as given at the constructors of `XExpr`. -/
def writeExpr : XExpr → Str
  | .binary name l r =>
    "<".toList ++ name ++ ">".toList ++ writeExpr l ++ writeExpr r ++ "</".toList ++ name ++ ">".toList
  | .multi name args =>
    "<".toList ++ name ++ ">".toList ++ writeExprs args ++ "</".toList ++ name ++ ">".toList
  | .custom opClass args =>
    "<customOperator".toList ++ optAttr " class=\"" opClass ++ ">".toList ++ writeExprs args ++
      "</customOperator>".toList
  | .not e => "<not>".toList ++ writeExpr e ++ "</not>".toList
  | .stringMatch l r cs sub =>
    "<stringMatch ".toList ++ " caseSensitive=\"".toList ++ boolText cs ++ ['"'] ++ " substring=\"".toList ++
      boolText sub ++ ['"'] ++ ">".toList ++ writeExpr l ++ writeExpr r ++ "</stringMatch>".toList
  | .variable i => "<variable identifier=\"".toList ++ xmlString i ++ "\"/>".toList
  | .index e n => "<index n=\"".toList ++ strInt n ++ "\">".toList ++ writeExpr e ++ "</index>".toList
  | .baseValue t v =>
    "<baseValue baseType=\"".toList ++ xmlString t ++ "\">".toList ++ xmlString v ++ "</baseValue>".toList
  | .isNull e => "<isNull>".toList ++ writeExpr e ++ "</isNull>".toList
  | .null => "<null/>".toList
  | .inside e shape coords =>
    "<inside shape=\"".toList ++ xmlString shape ++ ['"'] ++ " coords=\"".toList ++ join ' ' (coords.map strInt) ++
      "\">".toList ++ writeExpr e ++ "</inside>".toList
/-- `for argument in self.arguments: argument.WriteXML(f)`. -/
def writeExprs : List XExpr → Str
  | [] => []
  | e :: es => writeExpr e ++ writeExprs es
end

mutual
/-- `ResponseRule` classes (imsqti.py:1206-1293). -/
inductive Rule where
  /-- `SetOutcomeValue` (imsqti.py:1210-1218) -/
  | setOutcome (identifier : Str) (e : XExpr)
  /-- `ResponseCondition` (imsqti.py:1220-1244): the test and rules of `responseIf`, the
  `responseElseIf` branches, and at most one `responseElse`. -/
  | condition (e : XExpr) (rules : List Rule) (elseIfs : List Branch) (els : List Else)
/-- `ResponseElseIf` (imsqti.py:1264-1280) -/
inductive Branch where
  | mk (e : XExpr) (rules : List Rule)
/-- `ResponseElse` (imsqti.py:1282-1293) -/
inductive Else where
  | mk (rules : List Rule)
end

mutual
/-- `SetOutcomeValue.WriteXML` (imsqti.py:1215-1218), `ResponseCondition.WriteXML` (imsqti.py:1237-1244) and `ResponseIf.WriteXML` (imsqti.py:1257-1262). -/
def writeRule : Rule → Str
  | .setOutcome i e =>
    "\n<setOutcomeValue identifier=\"".toList ++ xmlString i ++ "\">".toList ++ writeExpr e ++
      "</setOutcomeValue>".toList
  | .condition e rules elseIfs els =>
    "\n<responseCondition>".toList ++
      ("\n<responseIf>".toList ++ writeExpr e ++ writeRules rules ++ "\n</responseIf>".toList) ++
      writeBranches elseIfs ++ writeElses els ++ "\n</responseCondition>".toList
/-- `for rule in self.rules: rule.WriteXML(f)`. -/
def writeRules : List Rule → Str
  | [] => []
  | r :: rs => writeRule r ++ writeRules rs
/-- `ResponseElseIf.WriteXML` (imsqti.py:1275-1280). -/
def writeBranch : Branch → Str
  | .mk e rules => "\n<responseElseIf>".toList ++ writeExpr e ++ writeRules rules ++ "\n</responseElseIf>".toList
/-- `for item in self.responseElseIf: item.WriteXML(f)` (imsqti.py:1240-1241). -/
def writeBranches : List Branch → Str
  | [] => []
  | b :: bs => writeBranch b ++ writeBranches bs
/-- `ResponseElse.WriteXML` (imsqti.py:1289-1293). -/
def writeElse : Else → Str
  | .mk rules => "\n<responseElse>".toList ++ writeRules rules ++ "\n</responseElse>".toList
/-- `if self.responseElse: self.responseElse.WriteXML(f)` (imsqti.py:1242-1243). -/
def writeElses : List Else → Str
  | [] => []
  | e :: es => writeElse e ++ writeElses es
end

/-- `ResponseProcessing.WriteXML` (imsqti.py:1199-1204): nothing without rules. -/
def writeRP (rules : List Rule) : Str :=
  if rules.isEmpty then [] else "\n<responseProcessing>".toList ++ writeRules rules ++ "\n</responseProcessing>".toList

/-! ## Declarations, feedback and the item -/

/-- `DefaultValue` (imsqti.py:279-294). -/
structure Default where
  value : Str
  interpretation : Option Str := none

/-- `DefaultValue.WriteXML` (imsqti.py:287-294). -/
def writeDefault (d : Default) : Str :=
  "\n<defaultValue".toList ++ optAttr " interpretation=\"" d.interpretation ++ ">".toList ++
    "<value>".toList ++ xmlString d.value ++ "</value>".toList ++ "</defaultValue>".toList

/-- `ResponseDeclaration` and `OutcomeDeclaration` (imsqti.py:216-277). -/
structure Decl where
  /-- is it an `OutcomeDeclaration`? -/
  outcome : Bool
  identifier : Str
  cardinality : Str
  baseType : Str
  default : Option Default := none
  interpretation : Option Str := none
  normalMaximum : Option PyNum := none

/-- `if self.default: … else: f.write('/>')` (imsqti.py:244-249, 272-277). -/
def declEnd (d : Decl) (name : Str) : Str :=
  match d.default with
  | some v => ">".toList ++ writeDefault v ++ "</".toList ++ name ++ ">".toList
  | none => "/>".toList

/-- `ResponseDeclaration.WriteXML` (imsqti.py:240-249); the attributes are not escaped. -/
def writeResponseDecl (d : Decl) : Str :=
  "\n<responseDeclaration identifier=\"".toList ++ d.identifier ++ "\" cardinality=\"".toList ++ d.cardinality ++
    "\" baseType=\"".toList ++ d.baseType ++ ['"'] ++ declEnd d "responseDeclaration".toList

/-- `OutcomeDeclaration.WriteXML` (imsqti.py:264-277); a normal maximum of zero is not written. -/
def writeOutcomeDecl (d : Decl) : Str :=
  "\n<outcomeDeclaration identifier=\"".toList ++ d.identifier ++ "\" cardinality=\"".toList ++ d.cardinality ++
    "\" baseType=\"".toList ++ d.baseType ++ ['"'] ++ optAttr " interpretation=\"" d.interpretation ++
    (match d.normalMaximum with
     | none => []
     | some m => if m.zero then [] else " normalMaximum=\"".toList ++ m.text ++ ['"']) ++
    declEnd d "outcomeDeclaration".toList

/-- `ModalFeedback` (imsqti.py:455-487).  The title is never written. -/
structure Feedback where
  title : Option Str := none
  outcomeIdentifier : Str
  identifier : Str
  showHide : Str
  kids : List Elt

/-- `ModalFeedback.WriteXML` (imsqti.py:479-487). -/
def writeFeedback (m : Feedback) : Str :=
  "\n<modalFeedback".toList ++ " outcomeIdentifier=\"".toList ++ xmlString m.outcomeIdentifier ++ ['"'] ++
    " showHide=\"".toList ++ xmlString m.showHide ++ ['"'] ++ " identifier=\"".toList ++ xmlString m.identifier ++
    ['"'] ++ ">".toList ++ writeElts m.kids ++ "</modalFeedback>".toList

/-- `AssessmentItem` (imsqti.py:116-213). -/
structure Item where
  identifier : Str
  title : Str
  label : Option Str := none
  language : Option Str := none
  adaptive : Bool := false
  timeDependent : Bool := false
  toolName : Option Str := none
  toolVersion : Option Str := none
  /-- the values of the dictionary `variables`, whose keys are their identifiers -/
  variables : List Decl := []
  itemBody : Option (Body × List Elt) := none
  responseProcessing : Option (List Rule) := none
  modalFeedback : List Feedback := []

/-- `≤` on strings: by code points. -/
def strLe : Str → Str → Bool
  | [], _ => true
  | _ :: _, [] => false
  | a :: s, b :: t => if a.toNat < b.toNat then true else if b.toNat < a.toNat then false else strLe s t

/-- Insertion into a sorted list (`vars.sort()`). -/
def insertDecl (d : Decl) : List Decl → List Decl
  | [] => [d]
  | e :: es => if strLe d.identifier e.identifier then d :: e :: es else e :: insertDecl d es

/-- `vars=self.variables.keys(); vars.sort()` (imsqti.py:195-196). -/
def sortDecls : List Decl → List Decl
  | [] => []
  | d :: ds => insertDecl d (sortDecls ds)

/-- `AssessmentItem.WriteXML` (imsqti.py:171-213). -/
def writeItem (it : Item) : Str :=
  "<assessmentItem".toList ++
    "\n\txmlns=\"http://www.imsglobal.org/xsd/imsqti_v2p1\"".toList ++
    "\n\txmlns:xsi=\"http://www.w3.org/2001/XMLSchema-instance\"".toList ++
    "\n\txsi:schemaLocation=\"http://www.imsglobal.org/xsd/imsqti_v2p1 http://www.imsglobal.org/xsd/imsqti_v2p1.xsd\"".toList ++
    " identifier=\"".toList ++ xmlString it.identifier ++ ['"'] ++
    "\n title=\"".toList ++ xmlString it.title ++ ['"'] ++
    optAttr "\n label=\"" it.label ++ optAttr "\n xml:lang=\"" it.language ++
    "\n adaptive=\"".toList ++ boolText it.adaptive ++ ['"'] ++
    "\n timeDependent=\"".toList ++ boolText it.timeDependent ++ ['"'] ++
    optAttr "\n toolName=\"" it.toolName ++ optAttr "\n toolVersion=\"" it.toolVersion ++ ">".toList ++
    ((sortDecls it.variables).filter (fun d => !d.outcome)).flatMap writeResponseDecl ++
    ((sortDecls it.variables).filter (fun d => d.outcome)).flatMap writeOutcomeDecl ++
    (match it.itemBody with
     | none => []
     | some (b, blocks) =>
       "\n<itemBody".toList ++ bodyAttrs b ++ ">".toList ++ writeElts blocks ++ "\n</itemBody>".toList) ++
    (match it.responseProcessing with
     | none => []
     | some rules => writeRP rules) ++
    it.modalFeedback.flatMap writeFeedback ++ "\n</assessmentItem>\n".toList

/-- The file of a migrated item (imsqtiv1.py:789-798): the declaration, the migration messages as a
comment unless they are switched off, and the item. -/
def writeItemFile (noComment : Bool) (msg : Str) (it : Item) : Str :=
  "<?xml version=\"1.0\" encoding=\"UTF-8\"?>\n".toList ++
    (if noComment then [] else "<!--\n".toList ++ encodeComment msg ++ "\t-->\n\n".toList) ++ writeItem it

end Verif.ItemXml
