import Verif.Model.QtiExpr

/-!
# Running response processing

`ResponseProcessing` and its rules (/repo/pyslet/pyslet/qtiv2/processing.py:13-230), and the parts of
`ItemSessionState` that prepare and run it (/repo/pyslet/pyslet/qtiv2/variables.py:1746-1763, 1875-1919).
-/

namespace Verif.Qti

open Verif

mutual
/-- Response rules (processing.py:57-230).  A missing expression is `none`. -/
inductive Rule where
  /-- `SetOutcomeValue` -/
  | setOutcomeValue (identifier : Str) (expr : Option Expr)
  /-- `ExitResponse` -/
  | exitResponse
  /-- `ResponseCondition`: the `ResponseIf` branch followed by the `ResponseElseIf` branches; a missing
  `ResponseElse` is an empty one -/
  | condition (branches : List Branch) (els : List Rule)
/-- `ResponseIf` and `ResponseElseIf` (processing.py:102-140, 168-178). -/
inductive Branch where
  | mk (expr : Option Expr) (rules : List Rule)
end

/-- The condition of a branch (processing.py:130-135): the value must be a single boolean; NULL counts
as false. -/
def branchTest (st : State) (expr : Option Expr) : Except Err Bool :=
  match expr with
  | none => .error .processingError
  | some e => do
    let v ← eval st e
    let _ ← checkBaseTypes [v.bt, some .boolean]
    let _ ← checkCardinalities [v.card, some .single]
    return v.bool? = some true

/-- `SetOutcomeValue.Run` (processing.py:206-213). -/
def setOutcome (st : State) (identifier : Str) (expr : Option Expr) : Except Err State :=
  match expr with
  | none => .error .processingError
  | some e => do
    let v ← eval st e
    if ← st.isOutcome identifier then st.set identifier v else throw .processingError

mutual
/-- `Run` of a rule; `ResponseCondition.Run` is processing.py:92-99.  The truth value tells whether `StopProcessing` was raised (processing.py:216-230). -/
def runRule (st : State) : Rule → Except Err (State × Bool)
  | .setOutcomeValue i e => setOutcome st i e >>= fun st => .ok (st, false)
  | .exitResponse => .ok (st, true)
  | .condition branches els =>
    runBranches st branches >>= fun o =>
    match o with
    | some p => .ok p
    | none => runRules st els
/-- The branches of `ResponseCondition.Run` (processing.py:92-97): the result of the first one whose
condition holds. -/
def runBranches (st : State) : List Branch → Except Err (Option (State × Bool))
  | [] => .ok none
  | .mk e rules :: rest =>
    branchTest st e >>= fun b =>
    if b then runRules st rules >>= fun p => .ok (some p) else runBranches st rest
/-- Rules in order. -/
def runRules (st : State) : List Rule → Except Err (State × Bool)
  | [] => .ok (st, false)
  | r :: rs => runRule st r >>= fun p => if p.2 then .ok p else runRules p.1 rs
end

/-- `ResponseProcessing.Run` (processing.py:43-54): the rules' `Run` returns nothing, so only
`exitResponse` ends the loop early. -/
def run (st : State) (rules : List Rule) : Except Err State := runRules st rules >>= fun p => .ok p.1

/-- `Value.NewValue(cardinality,baseType)` for a declaration (variables.py:352-364). -/
def newValue (card : Card) (bt : Option BaseType) : Except Err Value :=
  match card with
  | .single => newNull bt
  | .ordered => .ok (.ordered bt [])
  | .multiple => .ok (.multiple bt [])
  | .record => .ok (.record [])

/-- `Value.CopyValue` (variables.py:366-371). -/
def copyValue (v : Value) : Except Err Value :=
  match v.card with
  | none => .error .valueError
  | some c => newValue c v.bt >>= fun w => copyInto w v

/-- A numeric outcome without a default is zero (variables.py:1914-1919). -/
def zeroIfNull (v : Value) : Value :=
  match v with
  | .single (some .integer) none => .single (some .integer) (some (.int 0))
  | .single (some .float) none => .single (some .float) (some (.num 0))
  | v => v

/-- The loop of `SetOutcomeDefaults` (variables.py:1911-1919) over the names of the declared
outcomes. -/
def setOutcomeDefaults (st : State) : List Str → Except Err State
  | [] => .ok st
  | od :: ods => do
    let d ← st.get (od ++ ".DEFAULT".toList)
    let v ← copyValue d
    setOutcomeDefaults { st with vars := Dict.set st.vars od (zeroIfNull v) } ods

/-- `EndAttempt` (variables.py:1875-1883): `outcomes` are the names of the item's outcome
declarations, `rules` its response processing. -/
def endAttempt (adaptive : Bool) (outcomes : List Str) (rules : List Rule) (st : State) : Except Err State := do
  let st ← if adaptive then pure st else setOutcomeDefaults st outcomes
  run st rules

end Verif.Qti
