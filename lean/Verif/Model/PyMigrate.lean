import Verif.Model.V1Resp

/-!
# Migration of version 1 items by the pyslet library

The second converter of the repository: the `MigrateV2...` functions of /repo/pyslet/pyslet/qtiv1 (`core.py`,
`common.py`, `item.py`).  Modelled here are the conversion of enumerated attributes and of areas, the
declarations of responses and outcomes, and response processing.  The elements of version 1 are those of
`Verif.V1` (`Cond`, `Test`, `Effect`, `RespCondition`); what is written is given as the expression or rule that it
stands for (`Verif.Qti.Expr`, `Verif.Qti.Rule`), as the library keeps the converted item as objects and need not
read it back.  Simplifications: warnings are left out; attributes are given already read, except where said
otherwise; elements `dur...` and `var_extension`, which are refused like `varsubset`, are left out.

`raise QTIUnimplementedError(...)` and `raise QTIUnimplementedOperator(...)` in common.py and item.py are
`NameError`s: the first name is defined in core.py and not imported, the second is not defined at all.
-/

namespace Verif.PyMig

open Verif Verif.Qti Verif.V1

/-! ## Enumerated attributes -/

/-- `MigrateV2Cardinality` (core.py:376-386); `none` is Python's `None`, the value of an attribute that is not
given: `xsi.MakeEnumeration(RCardinality)` sets no default (core.py:374, xsdatatypes20041028.py:584-597). -/
def cardinality : Option Card → Except Err Card
  | some .single => .ok .single
  | some .multiple => .ok .multiple
  | some .ordered => .ok .ordered
  | _ => .error .keyError

/-- The names in `VarType` (core.py:406-415). -/
inductive VarType where
  | integer | string | decimal | scientific | boolean | enumerated | set
deriving DecidableEq, Repr

/-- `VarType.decode` (core.py:406-415): two names have the same number. -/
def VarType.code : VarType → Nat
  | .integer => 1
  | .string => 2
  | .decimal => 3
  | .scientific => 4
  | .boolean => 5
  | .enumerated => 5
  | .set => 6

/-- The dictionary in `MigrateV2VarType` (core.py:439-447), in the order it is written: the last of two entries with
the same key counts. -/
def varTypes : List (Nat × BaseType) :=
  [(VarType.integer.code, .integer), (VarType.string.code, .string), (VarType.decimal.code, .float),
   (VarType.scientific.code, .float), (VarType.boolean.code, .boolean), (VarType.enumerated.code, .identifier),
   (VarType.set.code, .identifier)]

/-- `MigrateV2VarType` (core.py:418-447). -/
def varType (t : VarType) : Except Err BaseType :=
  match varTypes.reverse.find? (fun p => p.1 = t.code) with
  | some p => .ok p.2
  | none => .error .keyError

/-- `View` of version 1 (core.py:469-480). -/
inductive View where
  | all | administrator | adminAuthority | assessor | author | candidate | invigilatorProctor | psychometrician
  | scorer | tutor
deriving DecidableEq, Repr

/-- `View` of version 2 (qtiv2/core.py:286-293). -/
inductive View2 where
  | author | candidate | proctor | scorer | testConstructor | tutor
deriving DecidableEq, Repr

/-- `MigrateV2View` (core.py:488-524): the views and whether a warning is given. -/
def view : View → List View2 × Bool
  | .administrator => ([.proctor], true)
  | .adminAuthority => ([.proctor], true)
  | .assessor => ([.scorer], true)
  | .author => ([.author], false)
  | .candidate => ([.candidate], false)
  | .invigilatorProctor => ([.proctor], false)
  | .psychometrician => ([.testConstructor], true)
  | .scorer => ([.scorer], false)
  | .tutor => ([.tutor], false)
  | .all => ([.author, .candidate, .proctor, .scorer, .testConstructor, .tutor], false)

/-- `View.decode` (core.py:469-486) with the aliases of `MakeEnumerationAliases` and `MakeLowerAliases`: the names in
lower case. -/
def viewNames : List (Str × View) :=
  [("all".toList, .all), ("administrator".toList, .administrator), ("adminauthority".toList, .adminAuthority),
   ("assessor".toList, .assessor), ("author".toList, .author), ("candidate".toList, .candidate),
   ("invigilatorproctor".toList, .invigilatorProctor), ("proctor".toList, .invigilatorProctor),
   ("invigilator".toList, .invigilatorProctor), ("psychometrician".toList, .psychometrician),
   ("scorer".toList, .scorer), ("tutor".toList, .tutor)]

/-- `View.DecodeLowerValue` (xsdatatypes20041028.py:471-481). -/
def readView (src : Str) : Except Err View :=
  match viewNames.find? (fun p => p.1 = Py.lower (Names.strip src)) with
  | some p => .ok p.2
  | none => .error .valueError

/-! ## Areas -/

/-- `int(float(s))` of a string of digits and points (core.py:146, 153). -/
def wholePart (s : Str) : Except Err Int := Xsd.pyUnsigned s >>= fun q => .ok q.floor

/-- The character loop of `MigrateV2AreaCoords` (core.py:140-153). -/
def areaNums : Str → List Int → Str → Bool → Except Err (List Int)
  | [], coords, vStr, _ =>
    if vStr ≠ [] then wholePart vStr >>= fun n => .ok (coords ++ [n]) else .ok coords
  | c :: t, coords, vStr, sep =>
    if Shapes.isNumChar c then
      if sep ∧ vStr ≠ [] then wholePart vStr >>= fun n => areaNums t (coords ++ [n]) [c] false
      else areaNums t coords (vStr ++ [c]) sep
    else areaNums t coords vStr true

/-- `MigrateV2AreaCoords` (core.py:109-185); no area is Python's `None`.  The test of how many coordinates are
missing for an ellipse names a variable `corrds` that does not exist (core.py:163). -/
def areaCoords (area : Option Shapes.V1Shape) (value : Str) : Except Err (Shapes.Shape × List Int) :=
  areaNums value [] [] false >>= fun coords =>
  match area with
  | some .rect =>
    match Shapes.padTo4 coords with
    | c0 :: c1 :: c2 :: c3 :: _ => .ok (.rect, [c0, c1, c0 + c3 - 1, c1 + c2 - 1])
    | _ => .error .indexError
  | some .ellipse =>
    match coords with
    | c0 :: c1 :: c2 :: c3 :: _ =>
      if c2 = c3 then .ok (.circle, [c0, c1, Int.fdiv c2 2])
      else .ok (.ellipse, [c0, c1, Int.fdiv c2 2, Int.fdiv c3 2])
    | _ => .error .nameError
  | _ => .ok (.poly, coords)

/-! ## Declarations -/

/-- A variable declaration of the converted item (`ResponseDeclaration`, `OutcomeDeclaration`), with the attributes
that migration sets. -/
structure Decl where
  kind : Kind
  card : Card
  bt : BaseType
  default : Option Str := none
  normalMinimum : Option Rat := none
  normalMaximum : Option Rat := none
  masteryValue : Option Rat := none
  interpretation : Str := []
  deriving DecidableEq

/-- The dictionary `declarations` of an item (qtiv2/core.py:344-361). -/
abbrev Decls := List (Str × Decl)

/-- `ValidateIdentifier(value)` with the default prefix. -/
def ident (s : Str) : Str := Names.validateIdentifier ['_'] s

/-- `RegisterDeclaration` (qtiv2/core.py:351-355).  `DeclarationError` is reported as `qtiException`. -/
def register (ds : Decls) (id : Str) (d : Decl) : Except Err Decls :=
  if Dict.has ds id then .error .qtiException else .ok (Dict.set ds id d)

/-- Two digits at least: `"%02i"`. -/
def twoDigits (i : Nat) : Str := if i < 10 then '0' :: Py.strNat i else Py.strNat i

/-- The loop that looks for a name for the response of the `i`-th interaction (item.py:959-962): nothing changes from
one round to the next.  `none`: still looking when the fuel is used up. -/
def findName (ds : Decls) (base : Str) (i : Nat) : Nat → Option Str
  | 0 => none
  | fuel + 1 =>
    let name := base ++ '_' :: twoDigits i
    if Dict.has ds name then findName ds base i fuel else some name

/-- The names for `n` interactions, numbered from `i` on (item.py:956-964). -/
def findNames (ds : Decls) (base : Str) (fuel : Nat) : Nat → Nat → Option (List Str)
  | _, 0 => some []
  | i, n + 1 =>
    match findName ds base i fuel with
    | none => none
    | some name => (findNames ds base fuel (i + 1) n).map (name :: ·)

/-- A `response_...` element with the number of interactions it becomes: the blanks of a text, the images with hot
spots, otherwise one (item.py:830-1561).  `bt` is the result of `GetBaseType`. -/
structure Question where
  name : Str
  card : Option Card
  bt : BaseType
  interactions : Nat
  default : Option Str := none

/-- The registration of several response declarations (item.py:970-976). -/
def registerAll (d : Decl) : Decls → List Str → Except Err Decls
  | ds, [] => .ok ds
  | ds, n :: ns => register ds n d >>= fun ds => registerAll d ds ns

/-- The part of `ResponseThing.MigrateV2Content` that declares responses (item.py:947-988): the declarations
afterwards, the identifiers of the responses bound to the interactions, in order, and, if there are several, an entry
for `_interactionFixup`. -/
def declareQuestion (fuel : Nat) (ds : Decls) (q : Question) :
    Option (Except Err (Decls × List Str × List (Str × List Str))) :=
  if q.interactions > 1 ∧ q.card = some .single then some (.ok (ds, [], []))
  else
    let base := ident q.name
    match (if q.interactions > 1 then findNames ds base fuel 1 q.interactions
      else if q.interactions = 1 then some [base] else some []) with
    | none => none
    | some names =>
      some (
        if names = [] then .ok (ds, [], []) else
        cardinality q.card >>= fun card =>
        registerAll { kind := .response, card := card, bt := q.bt, default := q.default } ds names >>= fun ds =>
        if names.length > 1 then
          register ds base { kind := .outcome, card := card, bt := q.bt } >>= fun ds => .ok (ds, names, [(base, names)])
        else .ok (ds, names, []))

/-- `DecVar` (common.py:1067-1075). -/
structure DecVar where
  varName : Str
  varType : VarType
  defaultValue : Option Str := none
  minValue : Option Str := none
  maxValue : Option Str := none
  cutValue : Option Str := none

/-- `float(s)` of an attribute, if it is given. -/
def floatOpt : Option Str → Except Err (Option Rat)
  | none => .ok none
  | some s => Xsd.pyFloat s >>= fun q => .ok (some q)

/-- `DecVar.MigrateV2` (common.py:1077-1106). -/
def decVar (ds : Decls) (v : DecVar) : Except Err Decls :=
  varType v.varType >>= fun bt =>
  floatOpt v.minValue >>= fun lo =>
  floatOpt v.maxValue >>= fun hi =>
  (if bt = .integer ∨ bt = .float then floatOpt v.cutValue else .ok none) >>= fun cut =>
  register ds (ident v.varName)
    { kind := .outcome, card := .single, bt := bt, default := v.defaultValue, normalMinimum := lo,
      normalMaximum := hi, masteryValue := cut }

/-- `InterpretVar.MigrateV2` (common.py:1144-1156), for the text extracted from it; `None` has no attribute
`interpretation`. -/
def interpretVar (ds : Decls) (varName text : Str) : Except Err Decls :=
  match Dict.get ds (ident varName) with
  | none => .error .attributeError
  | some d =>
    .ok (Dict.set ds (ident varName)
      { d with interpretation := if d.interpretation ≠ [] then d.interpretation ++ "; ".toList ++ text else text })

/-- The declarations in `Outcomes.MigrateV2` (item.py:1851-1853). -/
def decVars : Decls → List DecVar → Except Err Decls
  | ds, [] => .ok ds
  | ds, v :: vs => decVar ds v >>= fun ds => decVars ds vs

/-- The interpretations in `Outcomes.MigrateV2` (item.py:1854-1855). -/
def interpretVars : Decls → List (Str × Str) → Except Err Decls
  | ds, [] => .ok ds
  | ds, v :: vs => interpretVar ds v.1 v.2 >>= fun ds => interpretVars ds vs

/-! ## Conditions -/

/-- `VarThing.MigrateV2Variable` (common.py:1309-1319). -/
def variableExpr (id : Str) (card : Card) (index : Option Int) : Expr :=
  match index with
  | none => .leaf (.variable id)
  | some n =>
    if n = 0 then .leaf (.variable id)
    else match card with
      | .multiple => .leaf (.variable id)
      | .single => .leaf (.variable id)
      | _ => .node (.index (some n)) [.leaf (.variable id)]

/-- `VarThing.MigrateV2Value` (common.py:1321-1329). -/
def valueExpr (bt : BaseType) (value : Str) : Expr :=
  let value := Names.strip value
  match bt with
  | .pair => .leaf (.baseValue bt (value.map fun c => if c = ',' then ' ' else c))
  | .directedPair => .leaf (.baseValue bt (value.map fun c => if c = ',' then ' ' else c))
  | .point => .leaf (.baseValue bt (value.map fun c => if c = ',' then ' ' else c))
  | .identifier => .leaf (.baseValue bt (ident value))
  | bt => .leaf (.baseValue bt value)

/-- `VarInequality.MigrateV2Expression` (common.py:1396-1411). -/
def orderExpr (op : Op) (d : Decl) (id : Str) (index : Option Int) (value : Str) : Except Err Expr :=
  if d.card = .single then
    if d.bt = .integer ∨ d.bt = .float then
      .ok (.node op [variableExpr id d.card index, valueExpr d.bt value])
    else .error .nameError
  else .error .nameError

/-- `MigrateV2Expression` of the tests (common.py:1350-1538).  A response that is not declared is NULL
(common.py:1305-1307). -/
def testExpr (ds : Decls) (t : Test) (respident : Str) (index : Option Int) (value : Str) : Except Err Expr :=
  let id := ident respident
  match t with
  -- common.py:1350-1386; the first condition for containers, `... or qtiv2.variables.BaseType.pair`, is always true
  | .varequal caseFlag =>
    match Dict.get ds id with
    | none => .ok (.leaf .null)
    | some d =>
      if d.card = .single then
        if d.bt = .identifier ∨ d.bt = .pair then
          .ok (.node .match [variableExpr id d.card index, valueExpr d.bt value])
        else if d.bt = .integer then .ok (.node .match [variableExpr id d.card index, valueExpr d.bt value])
        else if d.bt = .string then
          .ok (.node (.stringMatch caseFlag false) [variableExpr id d.card index, valueExpr d.bt value])
        else if d.bt = .float then
          .ok (.node (.equal .exact [] true true) [variableExpr id d.card index, valueExpr d.bt value])
        else .error .nameError
      else .ok (.node .member [valueExpr d.bt value, variableExpr id d.card index])
  -- common.py:1415-1478
  | .varlt =>
    match Dict.get ds id with
    | none => .ok (.leaf .null)
    | some d => orderExpr .lt d id index value
  | .varlte =>
    match Dict.get ds id with
    | none => .ok (.leaf .null)
    | some d => orderExpr .lte d id index value
  | .vargt =>
    match Dict.get ds id with
    | none => .ok (.leaf .null)
    | some d => orderExpr .gt d id index value
  | .vargte =>
    match Dict.get ds id with
    | none => .ok (.leaf .null)
    | some d => orderExpr .gte d id index value
  -- common.py:1481-1502: no function of their own (common.py:1278-1279)
  | .varsubset => .error .nameError
  | .varsubstring _ => .error .nameError
  -- common.py:1505-1538
  | .varinside shape =>
    match Dict.get ds id with
    | none => .ok (.leaf .null)
    | some d =>
      if d.card = .single ∧ d.bt = .point then
        areaCoords (some shape) value >>= fun sc =>
        .ok (.node (.inside sc.1 (sc.2.map Shapes.Len.pixel)) [variableExpr id d.card index])
      else .error .nameError

mutual
/-- `MigrateV2Expression` of the content of a condition (common.py:1278-1713).  A `not` has one child at most
(common.py:1616); several are reported as `unmodelled`. -/
def condExpr (ds : Decls) : Cond → Except Err Expr
  -- common.py:1652-1659
  | .and cs =>
    if cs = [] then .ok (.leaf .null)
    else condExprs ds cs >>= fun es => .ok (.node .and es)
  -- common.py:1684-1691
  | .or cs =>
    if cs = [] then .ok (.leaf .null)
    else condExprs ds cs >>= fun es => .ok (.node .or es)
  -- common.py:1622-1628
  | .not [] => .ok (.leaf .null)
  | .not [c] => condExpr ds c >>= fun e => .ok (.node .not [e])
  | .not _ => .error .unmodelled
  -- common.py:1709-1713
  | .other => .ok (.leaf (.baseValue .boolean "true".toList))
  -- common.py:1694-1701
  | .unanswered _ => .error .nameError
  | .test t respident index value => testExpr ds t respident index value
/-- The children of a condition, in order. -/
def condExprs (ds : Decls) : List Cond → Except Err (List Expr)
  | [] => .ok []
  | c :: cs => condExpr ds c >>= fun e => condExprs ds cs >>= fun es => .ok (e :: es)
end

/-- `ConditionVar.MigrateV2Expression` (common.py:1262-1272). -/
def conditionVar (ds : Decls) (cs : List Cond) : Except Err Expr :=
  condExprs ds cs >>= fun es => .ok (implicitAnd es)

/-! ## Rules -/

/-- `SetVar.MigrateV2Rule` (common.py:1175-1205).  An action that is not given is `set`. -/
def setVar (ds : Decls) (varName : Str) (action : Action) (value : Str) : Except Err Rule :=
  let id := ident varName
  match Dict.get ds id with
  | none => .error .nameError
  | some d =>
    if d.card ≠ .single then .error .nameError
    else
      let var : Expr := .leaf (.variable id)
      let val : Expr := .leaf (.baseValue d.bt (Names.strip value))
      match action with
      | .set => .ok (.setOutcomeValue id (some val))
      | .add => .ok (.setOutcomeValue id (some (.node .sum [var, val])))
      | .subtract => .ok (.setOutcomeValue id (some (.node .subtract [var, val])))
      | .multiply => .ok (.setOutcomeValue id (some (.node .product [var, val])))
      | .divide => .ok (.setOutcomeValue id (some (.node .divide [var, val])))
      -- other texts are refused when the attribute is read
      | .unknown => .error .valueError

/-- The declaration that `DisplayFeedback.MigrateV2Rule` adds if nothing has the name yet (common.py:1228-1234). -/
def feedbackDecl (ds : Decls) : Decls :=
  if Dict.has ds "FEEDBACK".toList then ds
  else Dict.set ds "FEEDBACK".toList { kind := .outcome, card := .multiple, bt := .identifier }

/-- `DisplayFeedback.MigrateV2Rule` (common.py:1225-1243): the declarations and the rule.  The value written is the
name as it was given, not the identifier made of it. -/
def displayFeedback (ds : Decls) (linkRefID : Str) : Decls × Rule :=
  (feedbackDecl ds, V1.displayFeedback linkRefID)

/-- The rule of a `setvar` or `displayfeedback`. -/
def effectRule (ds : Decls) : Effect → Except Err (Decls × Rule)
  | .setvar varName action value => setVar ds varName action value >>= fun r => .ok (ds, r)
  | .displayfeedback l => .ok (displayFeedback ds l)

/-- The rules of several, in order. -/
def effectRules : Decls → List Effect → Except Err (Decls × List Rule)
  | ds, [] => .ok (ds, [])
  | ds, f :: fs =>
    effectRule ds f >>= fun p => effectRules p.1 fs >>= fun q => .ok (q.1, p.2 :: q.2)

/-- Elements `setvar` before elements `displayfeedback`: they are kept in two lists (item.py:1879-1880,
1950-1953). -/
def isSetVar : Effect → Bool
  | .setvar _ _ _ => true
  | .displayfeedback _ => false

/-- The effects in the order in which they are converted. -/
def inOrder (fs : List Effect) : List Effect := fs.filter isSetVar ++ fs.filter fun f => !isSetVar f

/-- The state while response processing is converted: the declarations, the rules, whether the last condition had
`continue` set, and the rule container (item.py:1805-1818, 1898-1956). -/
structure St where
  decls : Decls
  rules : List (RP.Rule Expr Rule)
  cMode : Bool
  container : RP.Point

/-- `RespCondition.MigrateV2Rule` (item.py:1898-1956).  A rule container is a `ResponseProcessing`, `ResponseElse` or
`ResponseCondition` object, addressed as in `RP.Point`; `ChildElement(ResponseElse)` gives the one that exists or a
new one. -/
def respCondition (st : St) (c : RespCondition) : Except Err St :=
  (if c.continueFlag ∧ ¬ st.cMode then RP.getResponseElse st.rules st.container
    else .ok (st.rules, st.container)) >>= fun p =>
  conditionVar st.decls c.conds >>= fun e =>
  effectRules st.decls (inOrder c.effects) >>= fun q =>
  (if c.continueFlag ∨ st.cMode then RP.addResponseRule p.1 p.2 (.cond e q.2 [] none)
    else RP.addResponseElseIf p.1 p.2 (e, q.2)) >>= fun rules =>
  .ok ⟨q.1, rules, c.continueFlag,
    if c.continueFlag then p.2 else match p.2 with
      | .container d => .condition d
      | .condition d => .condition d⟩

/-- The conditions in document order (item.py:1816-1818). -/
def respConditions : St → List RespCondition → Except Err St
  | st, [] => .ok st
  | st, c :: cs => respCondition st c >>= fun st => respConditions st cs

/-- The rule that puts the answers to several interactions together (item.py:1808-1814). -/
def fixupRule (f : Str × List Str) : Rule :=
  .setOutcomeValue f.1 (some (.node .multiple (f.2.map fun id => .leaf (.variable id))))

/-- `ResProcessing.MigrateV2` (item.py:1805-1818): declarations and rules.  `fixups` is `_interactionFixup`, its keys
sorted. -/
def resProcessing (ds : Decls) (fixups : List (Str × List Str)) (vars : List DecVar) (interpretations : List (Str × Str))
    (rcs : List RespCondition) : Except Err (Decls × List Rule) :=
  decVars ds vars >>= fun ds =>
  interpretVars ds interpretations >>= fun ds =>
  respConditions ⟨ds, [], true, .container 0⟩ rcs >>= fun st =>
  .ok (st.decls, fixups.map fixupRule ++ readRules st.rules)

/-! ## Feedback and files -/

/-- The identifier of the modal feedback made from an `itemfeedback` element (item.py:2035-2045): shown when outcome
`FEEDBACK` contains it. -/
def feedbackIdentifier (name : Str) : Str := Names.validateIdentifier "FEEDBACK_".toList name

/-- `QuesTestInterop.MigrateV2` (imsqtiv1p2p1.py:54-70) for a file of items: nothing catches what `Item.MigrateV2`
raises. -/
def migrateAll {α β} (item : α → Except Err β) : List α → Except Err (List β)
  | [] => .ok []
  | x :: xs => item x >>= fun y => migrateAll item xs >>= fun ys => .ok (y :: ys)

end Verif.PyMig
