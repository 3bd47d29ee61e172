import Verif.Model.QtiRun
import Verif.Model.RespProc

/-!
# Migration of QTI version 1 response processing

The elements inside `resprocessing` (/repo/QTIMigration/lib/imsqtiv1.py:3197-3277, 3345-3951) and the
rules added for outcome limits (imsqtiv1.py:741-771).  The result is the expression or rule written to
the migrated item (/repo/QTIMigration/lib/imsqti.py:1192-1485), given here as the expression or rule that
reading it back yields (`Verif.Qti.Expr`, `Verif.Qti.Rule`).  Simplifications: warnings are left out; the
identifier and index attributes are given already read; attribute `case` is given already read.
-/

namespace Verif.V1

open Verif Verif.Qti

/-- `RESPONSE_PREFIX` (imsqtiv1.py). -/
def responsePrefix : Str := "RESPONSE_".toList

/-- The tests of a response (imsqtiv1.py:3656-3951). -/
inductive Test where
  | varequal (caseFlag : Bool)
  | varlt | varlte | vargt | vargte
  | varsubset
  | varsubstring (caseFlag : Bool)
  | varinside (shape : Shapes.V1Shape)
deriving DecidableEq, Repr

/-- The content of `conditionvar` (imsqtiv1.py:3442-3951). -/
inductive Cond where
  | and (cs : List Cond)
  | or (cs : List Cond)
  | not (cs : List Cond)
  | other
  | unanswered (respident : Str)
  | test (t : Test) (respident : Str) (index : Option Int) (value : Str)

/-- What the item knows about a response: the identifier of its declaration, its cardinality and base
type (`GetResponse`, imsqtiv1.py:570-574). -/
abbrev Env := Str → Option (Str × Card × BaseType)

/-- `VarThing.MakeVariableExpression` (imsqtiv1.py:3622-3640): expression, cardinality, base type. -/
def variableExpr (env : Env) (respident : Str) (index : Option Int) : Except Err (Expr × Card × BaseType) :=
  match env respident with
  | none => .ok (.leaf .null, .single, .identifier)
  | some (id, card, bt) =>
    match index with
    | none => .ok (.leaf (.variable id), card, bt)
    | some n =>
      if n = 0 then .ok (.leaf (.variable id), card, bt)
      else match card with
        | .multiple => .error .qtiException
        | .single => .ok (.leaf (.variable id), card, bt)
        | _ => .ok (.node (.index (some n)) [.leaf (.variable id)], .single, bt)

/-- `VarThing.MakeSingleValue` (imsqtiv1.py:3642-3650). -/
def singleValue (bt : BaseType) (value : Str) : Expr :=
  match bt with
  | .pair => .leaf (.baseValue bt (value.map fun c => if c = ',' then ' ' else c))
  | .directedPair => .leaf (.baseValue bt (value.map fun c => if c = ',' then ' ' else c))
  | .identifier => .leaf (.baseValue bt (Names.readIdentifier responsePrefix value).1)
  | bt => .leaf (.baseValue bt value)

/-- `CloseObject` of `VarLT`, `VarLTE`, `VarGT`, `VarGTE` (imsqtiv1.py:3718-3835). -/
def orderExpr (op : Op) (card : Card) (bt : BaseType) (var val : Expr) : Expr :=
  if card = .single then
    if bt = .integer ∨ bt = .float then .node op [var, val]
    else if bt = .string then .node .custom [var, val]
    else .leaf .null
  else .leaf .null

/-- `CloseObject` of the tests (imsqtiv1.py:3671-3951). -/
def testExpr (env : Env) (t : Test) (respident : Str) (index : Option Int) (value : Str) : Except Err Expr :=
  match t with
  -- imsqtiv1.py:3671-3702
  | .varequal caseFlag =>
    variableExpr env respident index >>= fun r =>
    let (var, card, bt) := r
    let val := singleValue bt value
    if card = .single then
      if bt = .identifier ∨ bt = .pair then .ok (.node .match [var, val])
      else if bt = .integer then .ok (.node .match [var, val])
      else if bt = .string then .ok (.node (.stringMatch caseFlag false) [var, val])
      else if bt = .float then .ok (.node (.equal .exact [] true true) [var, val])
      else .error .qtiException
    else
      if bt = .identifier ∨ bt = .pair ∨ bt = .string ∨ bt = .float then .ok (.node .member [val, var])
      else .error .qtiException
  -- imsqtiv1.py:3718-3735
  | .varlt => variableExpr env respident index >>= fun r =>
    .ok (orderExpr .lt r.2.1 r.2.2 r.1 (singleValue r.2.2 value))
  -- imsqtiv1.py:3751-3768
  | .varlte => variableExpr env respident index >>= fun r =>
    .ok (orderExpr .lte r.2.1 r.2.2 r.1 (singleValue r.2.2 value))
  -- imsqtiv1.py:3785-3802
  | .vargt => variableExpr env respident index >>= fun r =>
    .ok (orderExpr .gt r.2.1 r.2.2 r.1 (singleValue r.2.2 value))
  -- imsqtiv1.py:3818-3835
  | .vargte => variableExpr env respident index >>= fun r =>
    .ok (orderExpr .gte r.2.1 r.2.2 r.1 (singleValue r.2.2 value))
  -- imsqtiv1.py:3859-3885
  | .varsubset => variableExpr env respident none >>= fun r =>
    let (var, card, bt) := r
    if card = .single then .ok (.node .match [var, singleValue bt value])
    else .ok (.node .member [singleValue bt value, var])
  -- imsqtiv1.py:3907-3918
  | .varsubstring caseFlag => variableExpr env respident index >>= fun r =>
    let (var, card, bt) := r
    if bt ≠ .string then .ok (.leaf .null)
    else if card ≠ .single then .ok (.leaf .null)
    else .ok (.node (.stringMatch caseFlag true) [var, singleValue bt value])
  -- imsqtiv1.py:3947-3951
  | .varinside shape =>
    Shapes.convertAreaCoords shape value >>= fun sc =>
    variableExpr env respident index >>= fun r =>
    .ok (.node (.inside sc.1 (sc.2.map Shapes.Len.pixel)) [r.1])

/-- The implicit `and` of several expressions (imsqtiv1.py:3456-3467). -/
def implicitAnd : List Expr → Expr
  | [] => .leaf .null
  | [e] => e
  | es => .node .and es

/-- `NotOperatorV1.CloseObject` (imsqtiv1.py:3529-3541). -/
def notExpr : List Expr → Expr
  | [] => .leaf .null
  | [e] => .node .not [e]
  | es => .node .not [.node .and es]

mutual
/-- The expression of a condition (imsqtiv1.py:3473-3951). -/
def condExpr (env : Env) : Cond → Except Err Expr
  | .and cs => condExprs env cs >>= fun es => .ok (.node .and es)
  | .or cs => condExprs env cs >>= fun es => .ok (.node .or es)
  | .not cs => condExprs env cs >>= fun es => .ok (notExpr es)
  | .other => .ok (.leaf (.baseValue .boolean "true".toList))
  | .unanswered respident =>
    match env respident with
    | some (id, _, _) => .ok (.node .isNull [.leaf (.variable id)])
    | none => .ok (.leaf .null)
  | .test t respident index value => testExpr env t respident index value
/-- The expressions of several conditions, in order. -/
def condExprs (env : Env) : List Cond → Except Err (List Expr)
  | [] => .ok []
  | c :: cs => condExpr env c >>= fun e => condExprs env cs >>= fun es => .ok (e :: es)
end

/-- `ConditionVar.CloseObject` (imsqtiv1.py:3456-3467). -/
def conditionVar (env : Env) (cs : List Cond) : Except Err Expr :=
  condExprs env cs >>= fun es => .ok (implicitAnd es)

/-- The actions of `setvar` (imsqtiv1.py:3374-3403). -/
inductive Action where
  | set | add | subtract | multiply | divide
  /-- anything else -/
  | unknown
deriving DecidableEq, Repr

/-- `SetVar.CloseObject` (imsqtiv1.py:3380-3404), for an outcome with the given identifier and base
type.  Unknown actions fail on the misspelt name `selt` (imsqtiv1.py:3403). -/
def setVar (id : Str) (bt : BaseType) (action : Action) (value : Str) : Except Err Rule :=
  let var : Expr := .leaf (.variable id)
  let val : Expr := .leaf (.baseValue bt value)
  match action with
  | .set => .ok (.setOutcomeValue id (some val))
  | .add => .ok (.setOutcomeValue id (some (.node .sum [var, val])))
  | .subtract => .ok (.setOutcomeValue id (some (.node .subtract [var, val])))
  | .multiply => .ok (.setOutcomeValue id (some (.node .product [var, val])))
  | .divide => .ok (.setOutcomeValue id (some (.node .divide [var, val])))
  | .unknown => .error .nameError

/-- `DisplayFeedback.CloseObject` (imsqtiv1.py:3430-3436). -/
def displayFeedback (linkrefid : Str) : Rule :=
  .setOutcomeValue "FEEDBACK".toList
    (some (.node .multiple [.leaf (.variable "FEEDBACK".toList), .leaf (.baseValue .identifier linkrefid)]))

/-- `DecVar` (imsqtiv1.py:3200-3277): the identifier of its declaration, base type and limits. -/
structure DecVar where
  id : Str
  bt : BaseType
  min : Option Rat
  max : Option Rat

/-- `decvar.min`, `decvar.max` as conditions (imsqtiv1.py:746, 759): zero counts as absent. -/
def truthy : Option Rat → Option Rat
  | none => none
  | some q => if q = 0 then none else some q

/-- The literal of a limit (imsqtiv1.py:750-755, 763-768).  `floatStr` is Python's `str` on floats. -/
def limitValue (floatStr : Rat → Str) (bt : BaseType) (q : Rat) : Expr :=
  if bt = .integer then .leaf (.baseValue .integer (Xsd.encodeInteger (truncRat q)))
  else .leaf (.baseValue .float (floatStr q))

/-- The rule added for one limit (imsqtiv1.py:747-758, 760-771). -/
def limitRule (floatStr : Rat → Str) (op : Op) (d : DecVar) (q : Rat) : Rule :=
  .condition [.mk (some (.node op [.leaf (.variable d.id), limitValue floatStr d.bt q]))
    [.setOutcomeValue d.id (some (limitValue floatStr d.bt q))]] []

/-- The rules added for the limits of one outcome (imsqtiv1.py:744-771). -/
def limitRules (floatStr : Rat → Str) (d : DecVar) : List Rule :=
  (match truthy d.min with
    | some q => [limitRule floatStr .lt d q]
    | none => []) ++
  (match truthy d.max with
    | some q => [limitRule floatStr .gt d q]
    | none => [])

/-- The rules added for all the outcomes (imsqtiv1.py:741-771), in the order of the outcomes
dictionary. -/
def allLimitRules (floatStr : Rat → Str) (ds : List DecVar) : List Rule := ds.flatMap (limitRules floatStr)

mutual
/-- A response condition built by `AddRespCondition` as read back (imsqti.py:1220-1293). -/
def readRule : RP.Rule Expr Rule → Rule
  | .cond e as elseIfs els =>
    .condition (.mk (some e) as :: elseIfs.map fun b => .mk (some b.1) b.2) (readElse els)
/-- Its else-branch. -/
def readElse : Option (List (RP.Rule Expr Rule)) → List Rule
  | none => []
  | some rs => readRules rs
/-- Several of them. -/
def readRules : List (RP.Rule Expr Rule) → List Rule
  | [] => []
  | r :: rs => readRule r :: readRules rs
end

/-- The effects in a `respcondition` (imsqtiv1.py:3352-3436). -/
inductive Effect where
  | setvar (varname : Str) (action : Action) (value : Str)
  | displayfeedback (linkrefid : Str)
deriving DecidableEq, Repr

/-- `GetOutcome` (imsqtiv1.py:652-665): the identifier and base type of the declaration of an outcome,
which is made when there is none. -/
abbrev Outs := Str → Str × BaseType

/-- The rule of an effect. -/
def effectRule (outs : Outs) : Effect → Except Err Rule
  | .setvar varname action value => setVar (outs varname).1 (outs varname).2 action value
  | .displayfeedback linkrefid => .ok (displayFeedback linkrefid)

/-- The rules of several effects (`AddRule`, imsqtiv1.py:3342-3343). -/
def effectRules (outs : Outs) : List Effect → Except Err (List Rule)
  | [] => .ok []
  | f :: fs => effectRule outs f >>= fun r => effectRules outs fs >>= fun rs => .ok (r :: rs)

/-- A `respcondition`: its `conditionvar`, its `setvar`/`displayfeedback` elements in order, and its
`continue` flag (imsqtiv1.py:3319-3346). -/
structure RespCondition where
  conds : List Cond
  effects : List Effect
  continueFlag : Bool

/-- What the `respcondition` elements hand to `AddRespCondition` (imsqtiv1.py:3345-3346). -/
def respConditions (env : Env) (outs : Outs) : List RespCondition → Except Err (List (Expr × List Rule × Bool))
  | [] => .ok []
  | c :: cs =>
    conditionVar env c.conds >>= fun e =>
    effectRules outs c.effects >>= fun rs =>
    respConditions env outs cs >>= fun rest => .ok ((e, rs, c.continueFlag) :: rest)

/-- The response processing of a migrated item: the response conditions, then the limits. -/
def responseProcessing (floatStr : Rat → Str) (env : Env) (outs : Outs) (rcs : List RespCondition) (ds : List DecVar) :
    Except Err (List Rule) :=
  respConditions env outs rcs >>= fun cs =>
  RP.addAllConds RP.St.init cs >>= fun st =>
  .ok (readRules st.rules ++ allLimitRules floatStr ds)

end Verif.V1
