import Verif.Spec.Xml
import Verif.Model.ItemXml

/-!
# The document an item should be written as

`markup` and `itemTree` say, for the objects of an item, which elements, attributes and characters an
XML processor should report.  `nl` marks the line breaks that only lay out the text.
-/

namespace Verif.Spec

open Verif.ItemXml (Elt Body StringAtts XExpr Rule Branch Else Default Decl Feedback Item PyNum)

/-- A line break of the layout. -/
def nl : Node := .chr '\n'

/-- A text as characters. -/
def chars (s : Str) : List Node := s.map .chr

/-- The attributes that have a value, in order. -/
def given : List (String × Option Str) → List (Str × Str)
  | [] => []
  | (_, none) :: t => given t
  | (n, some v) :: t => (n.toList, v) :: given t

/-- An optional text; the empty text counts as absent. -/
def present : Option Str → Option Str
  | some (c :: t) => some (c :: t)
  | _ => none

/-- An integer in decimal notation. -/
def intText (n : Int) : Str := if n < 0 then '-' :: Nat.toDigits 10 n.natAbs else Nat.toDigits 10 n.natAbs

/-- An optional number; zero counts as absent. -/
def presentInt : Option Int → Option Str
  | some n => if n = 0 then none else some (intText n)
  | none => none

/-- A truth value. -/
def truth (b : Bool) : Str := if b then "true".toList else "false".toList

/-- Texts with a separator between them. -/
def separated (sep : Char) : List Str → Str
  | [] => []
  | [s] => s
  | s :: t :: ts => s ++ sep :: separated sep (t :: ts)

/-- The attributes of every body element. -/
def bodyGiven (b : Body) : List (String × Option Str) :=
  [("id", present b.id), ("class", present b.classid), ("xml:lang", present b.language), ("label", present b.label)]

/-- The attributes of string interactions. -/
def stringGiven (a : StringAtts) : List (String × Option Str) :=
  [("stringIdentifier", present a.stringIdentifier), ("base", presentInt a.base),
   ("expectedLength", presentInt a.expectedLength)]

/-- Width and height. -/
def sizeGiven (width height : Option Int) : List (String × Option Str) :=
  [("width", presentInt width), ("height", presentInt height)]

/-- The views of a rubric: all of them when none is named. -/
def viewsText (view : List Str) : Str := if view = [] then "all".toList else separated ' ' view

mutual
/-- What an object of the item body should be reported as. -/
def markup : Elt → List Node
  | .text s => chars s
  | .br b => [.elem "br".toList (given (bodyGiven b)) [], nl]
  | .img b src alt longdesc width height =>
    [.elem "img".toList (given (bodyGiven b ++ [("src", present src), ("alt", some alt), ("longdesc", present longdesc)] ++
      sizeGiven width height)) []]
  | .object data type width height =>
    [.elem "object".toList (given ([("data", present data), ("type", present type)] ++ sizeGiven width height)) []]
  | .inline name b kids => [nl, .elem name (given (bodyGiven b)) (markups kids)]
  | .div b kids => [nl, .elem "div".toList (given (bodyGiven b)) (markups kids)]
  | .blockquote b kids => [nl, .elem "blockquote".toList (given (bodyGiven b)) (markups kids)]
  | .list name b kids => [nl, .elem name (given (bodyGiven b)) (markups kids)]
  | .li b kids => [nl, .elem "li".toList (given (bodyGiven b)) (markups kids)]
  | .p b kids => [nl, .elem "p".toList (given (bodyGiven b)) (markups kids)]
  | .pre b kids => [nl, .elem "pre".toList (given (bodyGiven b)) (markups kids)]
  | .table b summary kids =>
    [nl, .elem "table".toList (given (bodyGiven b ++ [("summary", present summary)])) (markups kids)]
  | .tbody b kids => [nl, .elem "tbody".toList (given (bodyGiven b)) (markups kids)]
  | .tr b kids => [nl, .elem "tr".toList (given (bodyGiven b)) (markups kids)]
  | .cell name b kids => [nl, .elem name (given (bodyGiven b)) (markups kids)]
  | .rubric b view kids =>
    [nl, .elem "rubricBlock".toList (given (bodyGiven b ++ [("view", some (viewsText view))])) (markups kids ++ [nl])]
  | .prompt kids => [nl, .elem "prompt".toList [] (markups kids)]
  | .choiceInteraction resp b shuffle maxChoices prompt kids =>
    [nl, .elem "choiceInteraction".toList (given ([("responseIdentifier", some resp)] ++ bodyGiven b ++
      [("shuffle", some (truth shuffle)), ("maxChoices", some (intText maxChoices))]))
      (markups prompt ++ markups kids ++ [nl])]
  | .orderInteraction resp b shuffle prompt kids =>
    [nl, .elem "orderInteraction".toList (given ([("responseIdentifier", some resp)] ++ bodyGiven b ++
      [("shuffle", some (truth shuffle))])) (markups prompt ++ markups kids ++ [nl])]
  | .associateInteraction resp b shuffle maxAssociations prompt kids =>
    [nl, .elem "associateInteraction".toList (given ([("responseIdentifier", some resp)] ++ bodyGiven b ++
      [("shuffle", some (truth shuffle)), ("maxAssociations", some (intText maxAssociations))]))
      (markups prompt ++ markups kids ++ [nl])]
  | .simpleChoice b identifier fixed kids =>
    [nl, .elem "simpleChoice".toList (given (bodyGiven b ++
      [("identifier", some identifier), ("fixed", fixed.map truth)])) (markups kids)]
  | .simpleAssociableChoice identifier fixed matchMax matchGroup kids =>
    [nl, .elem "simpleAssociableChoice".toList (given
      [("identifier", some identifier), ("fixed", fixed.map truth), ("matchMax", some (intText matchMax)),
       ("matchGroup", if matchGroup = [] then none else some (separated ' ' matchGroup))]) (markups kids)]
  | .extendedText resp b a maxStrings prompt =>
    [nl, .elem "extendedTextInteraction".toList (given ([("responseIdentifier", some resp)] ++ bodyGiven b ++
      stringGiven a ++ [("maxStrings", presentInt maxStrings)])) (markups prompt)]
  | .textEntry resp b a =>
    [nl, .elem "textEntryInteraction".toList (given ([("responseIdentifier", some resp)] ++ bodyGiven b ++
      stringGiven a)) []]
  | .hotspot resp b maxChoices prompt graphic kids =>
    [nl, .elem "hotspotInteraction".toList (given ([("responseIdentifier", some resp)] ++ bodyGiven b ++
      [("maxChoices", some (intText maxChoices))])) (markups prompt ++ markup graphic ++ markups kids)]
  | .selectPoint resp b maxChoices prompt graphic =>
    [nl, .elem "selectPointInteraction".toList (given ([("responseIdentifier", some resp)] ++ bodyGiven b ++
      [("maxChoices", some (intText maxChoices))])) (markups prompt ++ markup graphic)]
  | .graphicOrder resp b graphic kids =>
    [nl, .elem "graphicOrderInteraction".toList (given ([("responseIdentifier", some resp)] ++ bodyGiven b))
      (markup graphic ++ markups kids)]
  | .hotspotChoice identifier fixed shape coords label =>
    [nl, .elem "hotspotChoice".toList (given [("identifier", some identifier), ("fixed", fixed.map truth),
      ("shape", some shape), ("coords", some (separated ',' (coords.map intText))),
      ("hotspotLabel", present label)]) []]
  | .slider resp b lower upper step stepLabel orientation reverse prompt =>
    [nl, .elem "sliderInteraction".toList (given ([("responseIdentifier", some resp)] ++ bodyGiven b ++
      [("lowerBound", some lower.text), ("upperBound", some upper.text), ("step", step.map PyNum.text),
       ("stepLabel", stepLabel.map truth), ("orientation", present orientation), ("reverse", reverse.map truth)]))
      (markups prompt)]
/-- What a list of objects should be reported as. -/
def markups : List Elt → List Node
  | [] => []
  | e :: es => markup e ++ markups es
end

mutual
/-- What an expression should be reported as. -/
def exprTree : XExpr → Node
  | .binary name l r => .elem name [] [exprTree l, exprTree r]
  | .multi name args => .elem name [] (exprTrees args)
  | .custom opClass args => .elem "customOperator".toList (given [("class", present opClass)]) (exprTrees args)
  | .not e => .elem "not".toList [] [exprTree e]
  | .stringMatch l r cs sub =>
    .elem "stringMatch".toList (given [("caseSensitive", some (truth cs)), ("substring", some (truth sub))])
      [exprTree l, exprTree r]
  | .variable i => .elem "variable".toList (given [("identifier", some i)]) []
  | .index e n => .elem "index".toList (given [("n", some (intText n))]) [exprTree e]
  | .baseValue t v => .elem "baseValue".toList (given [("baseType", some t)]) (chars v)
  | .isNull e => .elem "isNull".toList [] [exprTree e]
  | .null => .elem "null".toList [] []
  | .inside e shape coords =>
    .elem "inside".toList (given [("shape", some shape), ("coords", some (separated ',' (coords.map intText)))])
      [exprTree e]
/-- What a list of expressions should be reported as. -/
def exprTrees : List XExpr → List Node
  | [] => []
  | e :: es => exprTree e :: exprTrees es
end

mutual
/-- What a rule should be reported as. -/
def ruleTree : Rule → List Node
  | .setOutcome i e => [nl, .elem "setOutcomeValue".toList (given [("identifier", some i)]) [exprTree e]]
  | .condition e rules elseIfs els =>
    [nl, .elem "responseCondition".toList []
      ([nl, .elem "responseIf".toList [] (exprTree e :: ruleTrees rules ++ [nl])] ++ branchTrees elseIfs ++
        elseTrees els ++ [nl])]
/-- What a list of rules should be reported as. -/
def ruleTrees : List Rule → List Node
  | [] => []
  | r :: rs => ruleTree r ++ ruleTrees rs
/-- What the further branches of a condition should be reported as. -/
def branchTrees : List Branch → List Node
  | [] => []
  | .mk e rules :: bs =>
    [nl, .elem "responseElseIf".toList [] (exprTree e :: ruleTrees rules ++ [nl])] ++ branchTrees bs
/-- What the last branch of a condition should be reported as. -/
def elseTrees : List Else → List Node
  | [] => []
  | .mk rules :: es => [nl, .elem "responseElse".toList [] (ruleTrees rules ++ [nl])] ++ elseTrees es
end

/-- What a default value should be reported as. -/
def defaultTree (d : Default) : List Node :=
  [nl, .elem "defaultValue".toList (given [("interpretation", present d.interpretation)])
    [.elem "value".toList [] (chars d.value)]]

/-- What a declaration should be reported as. -/
def declTree (d : Decl) : List Node :=
  [nl, .elem (if d.outcome then "outcomeDeclaration".toList else "responseDeclaration".toList)
    (given ([("identifier", some d.identifier), ("cardinality", some d.cardinality), ("baseType", some d.baseType)] ++
      (if d.outcome then [("interpretation", present d.interpretation), ("normalMaximum", d.normalMaximum.map PyNum.text)]
       else [])))
    (match d.default with | none => [] | some v => defaultTree v)]

/-- What a feedback message should be reported as. -/
def feedbackTree (m : Feedback) : List Node :=
  [nl, .elem "modalFeedback".toList (given [("outcomeIdentifier", some m.outcomeIdentifier),
    ("showHide", some m.showHide), ("identifier", some m.identifier), ("title", present m.title)]) (markups m.kids)]

/-- What an item should be reported as, given its response declarations and its outcome declarations in
the order of the document. -/
def itemTree (it : Item) (responses outcomes : List Decl) : Node :=
  .elem "assessmentItem".toList
    (given [("xmlns", some "http://www.imsglobal.org/xsd/imsqti_v2p1".toList),
      ("xmlns:xsi", some "http://www.w3.org/2001/XMLSchema-instance".toList),
      ("xsi:schemaLocation", some
        "http://www.imsglobal.org/xsd/imsqti_v2p1 http://www.imsglobal.org/xsd/imsqti_v2p1.xsd".toList),
      ("identifier", some it.identifier), ("title", some it.title), ("label", present it.label),
      ("xml:lang", present it.language), ("adaptive", some (truth it.adaptive)),
      ("timeDependent", some (truth it.timeDependent)), ("toolName", present it.toolName),
      ("toolVersion", present it.toolVersion)])
    (responses.flatMap declTree ++ outcomes.flatMap declTree ++
      (match it.itemBody with
       | none => []
       | some (b, blocks) => [nl, .elem "itemBody".toList (given (bodyGiven b)) (markups blocks ++ [nl])]) ++
      (match it.responseProcessing with
       | none => []
       | some [] => []
       | some rules => [nl, .elem "responseProcessing".toList [] (ruleTrees rules ++ [nl])]) ++
      it.modalFeedback.flatMap feedbackTree ++ [nl])

/-- The order of identifiers: by code points, the first difference deciding. -/
def InOrder (l : List Decl) : Prop := l.Pairwise (fun a b => ¬ b.identifier < a.identifier)

mutual
/-- The characters of some content, in order. -/
def xmlText : Node → Str
  | .chr c => [c]
  | .elem _ _ kids => xmlTexts kids
/-- The characters of some content, in order. -/
def xmlTexts : List Node → Str
  | [] => []
  | n :: ns => xmlText n ++ xmlTexts ns
end

mutual
/-- The texts of an object of the item body, in order. -/
def eltText : Elt → Str
  | .text s => s
  | .br _ | .img .. | .object .. | .textEntry .. | .hotspotChoice .. => []
  | .inline _ _ kids | .div _ kids | .blockquote _ kids | .list _ _ kids | .li _ kids | .p _ kids | .pre _ kids
  | .table _ _ kids | .tbody _ kids | .tr _ kids | .cell _ _ kids | .rubric _ _ kids | .prompt kids => eltsText kids
  | .simpleChoice _ _ _ kids | .simpleAssociableChoice _ _ _ _ kids => eltsText kids
  | .choiceInteraction _ _ _ _ prompt kids => eltsText prompt ++ eltsText kids
  | .orderInteraction _ _ _ prompt kids => eltsText prompt ++ eltsText kids
  | .associateInteraction _ _ _ _ prompt kids => eltsText prompt ++ eltsText kids
  | .extendedText _ _ _ _ prompt => eltsText prompt
  | .hotspot _ _ _ prompt graphic kids => eltsText prompt ++ eltText graphic ++ eltsText kids
  | .selectPoint _ _ _ prompt graphic => eltsText prompt ++ eltText graphic
  | .graphicOrder _ _ graphic kids => eltText graphic ++ eltsText kids
  | .slider _ _ _ _ _ _ _ _ prompt => eltsText prompt
/-- The texts of some objects, in order. -/
def eltsText : List Elt → Str
  | [] => []
  | e :: es => eltText e ++ eltsText es
end

/-- A text without its line breaks. -/
def unbroken (s : Str) : Str := s.filter (fun c => c ≠ '\n')

/-! ## Texts that can be written -/

/-- A text an XML processor reports unchanged: legal characters, no carriage returns. -/
def TextOk (s : Str) : Prop := ∀ c ∈ s, XmlChar c ∧ c ≠ '\r'

/-- An attribute value that is reported unchanged when written with `XMLString` between double
quotes: no double quotes, tabs or line breaks. -/
def AttOk (s : Str) : Prop := ∀ c ∈ s, XmlChar c ∧ c ≠ '\r' ∧ c ≠ '\n' ∧ c ≠ '\t' ∧ c ≠ '"'

/-- An attribute value that is reported unchanged when written as it is. -/
def RawOk (s : Str) : Prop := AttOk s ∧ '<' ∉ s ∧ '&' ∉ s

/-- The same for an optional value. -/
def OptOk (P : Str → Prop) (o : Option Str) : Prop := ∀ s, o = some s → P s

/-- The attributes of a body element can be written. -/
def BodyOk (b : Body) : Prop := OptOk AttOk b.id ∧ OptOk AttOk b.classid ∧ OptOk AttOk b.language ∧ OptOk AttOk b.label

/-- An object without body attributes. -/
def NoBody (b : Body) : Prop := present b.id = none ∧ present b.classid = none ∧ present b.language = none ∧ present b.label = none

/-- Width and height are both given, or neither. -/
def SizeOk (width height : Option Int) : Prop := presentInt width = none ↔ presentInt height = none

/-- Attributes of string interactions that can be written. -/
def StringOk (a : StringAtts) : Prop := OptOk RawOk a.stringIdentifier

mutual
/-- An object whose texts can all be written. -/
def EltOk : Elt → Prop
  | .text s => TextOk s
  | .br b => NoBody b
  | .img b src alt longdesc width height =>
    NoBody b ∧ OptOk AttOk src ∧ AttOk alt ∧ OptOk AttOk longdesc ∧ SizeOk width height
  | .object data type width height => OptOk AttOk data ∧ OptOk AttOk type ∧ SizeOk width height
  | .inline name b kids => XmlName name ∧ BodyOk b ∧ EltsOk kids
  | .div b kids => BodyOk b ∧ EltsOk kids
  | .blockquote b kids => BodyOk b ∧ EltsOk kids
  | .list name b kids => XmlName name ∧ BodyOk b ∧ EltsOk kids
  | .li b kids => BodyOk b ∧ EltsOk kids
  | .p b kids => BodyOk b ∧ EltsOk kids
  | .pre b kids => BodyOk b ∧ EltsOk kids
  | .table b summary kids => BodyOk b ∧ OptOk AttOk summary ∧ EltsOk kids
  | .tbody b kids => BodyOk b ∧ EltsOk kids
  | .tr b kids => BodyOk b ∧ EltsOk kids
  | .cell name b kids => XmlName name ∧ BodyOk b ∧ EltsOk kids
  | .rubric b view kids => BodyOk b ∧ (∀ v ∈ view, RawOk v) ∧ EltsOk kids
  | .prompt kids => EltsOk kids
  | .choiceInteraction resp b _ _ prompt kids => RawOk resp ∧ BodyOk b ∧ EltsOk prompt ∧ EltsOk kids
  | .orderInteraction resp b _ prompt kids => RawOk resp ∧ BodyOk b ∧ EltsOk prompt ∧ EltsOk kids
  | .associateInteraction resp b _ _ prompt kids => RawOk resp ∧ BodyOk b ∧ EltsOk prompt ∧ EltsOk kids
  | .simpleChoice b identifier _ kids => BodyOk b ∧ AttOk identifier ∧ EltsOk kids
  | .simpleAssociableChoice identifier _ _ matchGroup kids =>
    AttOk identifier ∧ (∀ g ∈ matchGroup, RawOk g) ∧ EltsOk kids
  | .extendedText resp b a _ prompt => RawOk resp ∧ BodyOk b ∧ StringOk a ∧ EltsOk prompt
  | .textEntry resp b a => RawOk resp ∧ BodyOk b ∧ StringOk a
  | .hotspot resp b maxChoices prompt graphic kids =>
    RawOk resp ∧ BodyOk b ∧ maxChoices ≠ 0 ∧ EltsOk prompt ∧ EltOk graphic ∧ EltsOk kids
  | .selectPoint resp b maxChoices prompt graphic =>
    RawOk resp ∧ BodyOk b ∧ maxChoices ≠ 0 ∧ EltsOk prompt ∧ EltOk graphic
  | .graphicOrder resp b graphic kids => RawOk resp ∧ BodyOk b ∧ EltOk graphic ∧ EltsOk kids
  | .hotspotChoice identifier _ shape _ label => AttOk identifier ∧ AttOk shape ∧ OptOk AttOk label
  | .slider resp b lower upper step _ orientation _ prompt =>
    RawOk resp ∧ BodyOk b ∧ RawOk lower.text ∧ RawOk upper.text ∧ (∀ s, step = some s → RawOk s.text) ∧
      OptOk AttOk orientation ∧ EltsOk prompt
/-- Objects whose texts can all be written. -/
def EltsOk : List Elt → Prop
  | [] => True
  | e :: es => EltOk e ∧ EltsOk es
end

mutual
/-- An expression whose texts can all be written; areas with more than one coordinate cannot. -/
def ExprOk : XExpr → Prop
  | .binary name l r => XmlName name ∧ ExprOk l ∧ ExprOk r
  | .multi name args => XmlName name ∧ ExprsOk args
  | .custom opClass args => OptOk AttOk opClass ∧ ExprsOk args
  | .not e => ExprOk e
  | .stringMatch l r _ _ => ExprOk l ∧ ExprOk r
  | .variable i => AttOk i
  | .index e _ => ExprOk e
  | .baseValue t v => AttOk t ∧ TextOk v
  | .isNull e => ExprOk e
  | .null => True
  | .inside e shape coords => ExprOk e ∧ AttOk shape ∧ coords.length ≤ 1
/-- Expressions whose texts can all be written. -/
def ExprsOk : List XExpr → Prop
  | [] => True
  | e :: es => ExprOk e ∧ ExprsOk es
end

mutual
/-- A rule whose texts can all be written. -/
def RuleOk : Rule → Prop
  | .setOutcome i e => AttOk i ∧ ExprOk e
  | .condition e rules elseIfs els => ExprOk e ∧ RulesOk rules ∧ BranchesOk elseIfs ∧ ElsesOk els
/-- Rules whose texts can all be written. -/
def RulesOk : List Rule → Prop
  | [] => True
  | r :: rs => RuleOk r ∧ RulesOk rs
/-- Branches whose texts can all be written. -/
def BranchesOk : List Branch → Prop
  | [] => True
  | .mk e rules :: bs => ExprOk e ∧ RulesOk rules ∧ BranchesOk bs
/-- Last branches whose texts can all be written. -/
def ElsesOk : List Else → Prop
  | [] => True
  | .mk rules :: es => RulesOk rules ∧ ElsesOk es
end

/-- A declaration whose texts can all be written. -/
def DeclOk (d : Decl) : Prop :=
  RawOk d.identifier ∧ RawOk d.cardinality ∧ RawOk d.baseType ∧ OptOk AttOk d.interpretation ∧
    (∀ v, d.default = some v → TextOk v.value ∧ OptOk AttOk v.interpretation) ∧
    (∀ m, d.normalMaximum = some m → RawOk m.text ∧ m.zero = false)

/-- A feedback message whose texts can all be written; titles cannot. -/
def FeedbackOk (m : Feedback) : Prop :=
  AttOk m.outcomeIdentifier ∧ AttOk m.showHide ∧ AttOk m.identifier ∧ present m.title = none ∧ EltsOk m.kids

/-- An item whose texts can all be written. -/
def ItemOk (it : Item) : Prop :=
  AttOk it.identifier ∧ AttOk it.title ∧ OptOk AttOk it.label ∧ OptOk AttOk it.language ∧ OptOk AttOk it.toolName ∧
    OptOk AttOk it.toolVersion ∧ (∀ d ∈ it.variables, DeclOk d) ∧
    (∀ b blocks, it.itemBody = some (b, blocks) → BodyOk b ∧ EltsOk blocks) ∧
    (∀ rules, it.responseProcessing = some rules → RulesOk rules) ∧ (∀ m ∈ it.modalFeedback, FeedbackOk m)

end Verif.Spec
