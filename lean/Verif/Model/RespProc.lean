import Verif.Model.Py

/-!
# Model of response-processing construction

`ResProcessing.AddRespCondition` (/repo/QTIMigration/lib/imsqtiv1.py:3154-3180) building
`ResponseProcessing`/`ResponseCondition`/`ResponseElse` objects
(/repo/QTIMigration/lib/imsqti.py:1192-1293).
-/

namespace Verif.RP

open Verif

/-- Response rules of the written item (imsqti.py:1206-1293).  `E` are expressions, `A` the plain rules
(`setOutcomeValue`) produced by `setvar`/`displayfeedback`.  A `responseCondition` has an if-branch,
else-if branches and an optional else-branch. -/
inductive Rule (E A : Type) where
  | cond (ifExpr : E) (ifRules : List A) (elseIfs : List (E × List A)) (elseRules : Option (List (Rule E A)))

/-- `rpAddPoint` (imsqtiv1.py:3149): a reference to the object new conditions are added to.  Objects
are only ever created at the end of the current container, so a reference is addressed by how many
`responseElse` blocks (each belonging to the last rule of its container) lead to it: `container d` is the
`ResponseProcessing` (`d = 0`) or `ResponseElse` object at that depth, `condition d` is the
`ResponseCondition` that is the last rule of that container. -/
inductive Point where
  | container (d : Nat)
  | condition (d : Nat)
deriving DecidableEq, Repr

/-- The state of a `ResProcessing` object (imsqtiv1.py:3147-3149). -/
structure St (E A : Type) where
  rules : List (Rule E A)
  continueMode : Bool
  point : Point

/-- The initial state (imsqtiv1.py:3146-3149): `ResetResprocessing` has just emptied the rules. -/
def St.init {E A} : St E A := ⟨[], true, .container 0⟩

/-- Update of the container at depth `d`. -/
def atDepth {E A} (f : List (Rule E A) → List (Rule E A)) : Nat → List (Rule E A) → List (Rule E A)
  | 0, rs => f rs
  | d + 1, rs =>
    match rs.getLast? with
    | some (.cond e as els (some el)) => rs.dropLast ++ [.cond e as els (some (atDepth f d el))]
    | _ => rs

/-- Update of the `ResponseCondition` that is the last rule of a container. -/
def atLast {E A} (g : Rule E A → Rule E A) (rs : List (Rule E A)) : List (Rule E A) :=
  match rs.getLast? with
  | some r => rs.dropLast ++ [g r]
  | none => rs

/-- `addPoint.AddResponseRule(rc)` (imsqti.py:1196, 1286); a `ResponseCondition` has no such method. -/
def addResponseRule {E A} (rules : List (Rule E A)) (p : Point) (rc : Rule E A) :
    Except Err (List (Rule E A)) :=
  match p with
  | .container d => .ok (atDepth (· ++ [rc]) d rules)
  | .condition _ => .error .attributeError

/-- `addPoint.AddResponseElseIf(rcElseIf)` (imsqti.py:1229). -/
def addResponseElseIf {E A} (rules : List (Rule E A)) (p : Point) (b : E × List A) :
    Except Err (List (Rule E A)) :=
  match p with
  | .condition d => .ok (atDepth (atLast fun
      | .cond e as els el => .cond e as (els ++ [b]) el) d rules)
  | .container _ => .error .attributeError

/-- `addPoint.GetResponseElse()` (imsqti.py:1232-1235): creates the else block if there is none; the
result refers to it.  (`if not self.responseElse`: instances are always true.) -/
def getResponseElse {E A} (rules : List (Rule E A)) (p : Point) :
    Except Err (List (Rule E A) × Point) :=
  match p with
  | .condition d => .ok (atDepth (atLast fun
      | .cond e as els none => .cond e as els (some [])
      | .cond e as els (some el) => .cond e as els (some el)) d rules, .container (d + 1))
  | .container _ => .error .attributeError

/-- `ResProcessing.AddRespCondition` (imsqtiv1.py:3154-3180). -/
def addRespCondition {E A} (st : St E A) (expression : E) (rules : List A) (continueFlag : Bool) :
    Except Err (St E A) :=
  if continueFlag then
    let rc : Rule E A := .cond expression rules [] none
    (if st.continueMode then Except.ok (st.rules, st.point)
      else getResponseElse st.rules st.point) >>= fun rp =>
    addResponseRule rp.1 rp.2 rc >>= fun rs =>
    .ok ⟨rs, continueFlag, rp.2⟩
  else if st.continueMode then
    let rc : Rule E A := .cond expression rules [] none
    addResponseRule st.rules st.point rc >>= fun rs =>
    .ok ⟨rs, continueFlag, match st.point with
      | .container d => .condition d
      | .condition d => .condition d⟩
  else
    addResponseElseIf st.rules st.point (expression, rules) >>= fun rs =>
    .ok ⟨rs, continueFlag, st.point⟩

/-- All the respconditions of one resprocessing section, in document order
(imsqtiv1.py:3345-3346). -/
def addAllConds {E A} (st : St E A) : List (E × List A × Bool) → Except Err (St E A)
  | [] => .ok st
  | c :: cs => addRespCondition st c.1 c.2.1 c.2.2 >>= fun st' => addAllConds st' cs

end Verif.RP
