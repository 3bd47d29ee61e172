import Verif.Model.Dict

/-!
# Model of the variable tables of a QTIItem

`QTIItem` (/repo/QTIMigration/lib/imsqtiv1.py:481-667) and the declaration table of `AssessmentItem`
(/repo/QTIMigration/lib/imsqti.py:143-153).
-/

namespace Verif.Item

open Verif Verif.Py Verif.Dict

/-- What `QTIItem.variables` holds for a name: `None` (only `FEEDBACK`, imsqtiv1.py:488), a
declaration made for a response (imsqtiv1.py:553, 568) or a pair made for an outcome
(imsqtiv1.py:645, 665). -/
inductive VarKind where
  | reserved
  | response
  | outcome
deriving DecidableEq, Repr

/-- The class of a declaration in `AssessmentItem.variables`. -/
inductive DeclKind where
  | responseDeclaration
  | outcomeDeclaration
deriving DecidableEq, Repr

/-- The state (imsqtiv1.py:488-491 and imsqti.py:126).  Declarations are represented by their
identifiers, which equal the keys they are stored under. -/
structure St where
  variables : List (Str × VarKind)
  responses : List (Str × Str)
  outcomes : List (Str × Str)
  declareFeedback : Bool
  declared : List (Str × DeclKind)

/-- `"FEEDBACK"`. -/
def feedbackName : Str := "FEEDBACK".toList

/-- `QTIItem.__init__` (imsqtiv1.py:488-491). -/
def St.init : St := ⟨[(feedbackName, .reserved)], [], [], false, []⟩

/-- `string.zfill(n,2)` for `n < 100`. -/
def zfill2 (n : Nat) : Str := [digitChar (n / 10), digitChar (n % 10)]

/-- The loop of `QTIItem.UniqueVarName` (imsqtiv1.py:531-540): `fuel` numbers are left to try. -/
def uniqueLoop (vars : List (Str × VarKind)) (base : Str) : Nat → Nat → Except Err Str
  | 0, _ => .error .qtiException
  | fuel + 1, trynum =>
    let tryname := base ++ zfill2 trynum
    if has vars tryname then uniqueLoop vars base fuel (trynum + 1) else .ok tryname

/-- `QTIItem.UniqueVarName` (imsqtiv1.py:531-540): numbers 1 to 99. -/
def uniqueVarName (vars : List (Str × VarKind)) (base : Str) : Except Err Str :=
  uniqueLoop vars base 99 1

/-- Choosing the migrated name (imsqtiv1.py:545-549, 560-564, 636-640, 657-661). -/
def chooseName (s : St) (identifier : Str) : Except Err Str :=
  if has s.variables identifier then uniqueVarName s.variables identifier else .ok identifier

/-- `AssessmentItem.DeclareVariable` (imsqti.py:143-146); the error is marked so that it can be told
apart from the converter's own checks. -/
def declareVariable (declared : List (Str × DeclKind)) (name : Str) (k : DeclKind) :
    Except Err (List (Str × DeclKind)) :=
  if has declared name then .error .keyError else .ok (set declared name k)

/-- `QTIItem.DeclareResponse` and `DeclareFakeResponse` (imsqtiv1.py:542-568); they differ only in
the class of the declaration.  Returns the migrated identifier. -/
def declareResponse (k : DeclKind) (s : St) (identifier : Str) : Except Err (Str × St) :=
  if has s.responses identifier then .error .qtiException
  else
    match chooseName s identifier with
    | .error e => .error e
    | .ok name =>
      match declareVariable s.declared name k with
      | .error e => .error e
      | .ok d => .ok (name, { s with responses := set s.responses identifier name, declared := d,
                                     variables := set s.variables name .response })

/-- `QTIItem.GetResponse(identifier).GetIdentifier()` (imsqtiv1.py:570-577); `none` when there is no
such response. -/
def getResponse (s : St) (identifier : Str) : Except Err (Option Str) :=
  match get s.responses identifier with
  | none => .ok none
  | some name =>
    match get s.variables name with
    | some .response => .ok (some name)
    | some _ => .error .attributeError
    | none => .error .keyError

/-- Declaring an outcome under an unused source identifier (imsqtiv1.py:636-645, 657-666). -/
def newOutcome (s : St) (identifier : Str) : Except Err (Str × St) :=
  match chooseName s identifier with
  | .error e => .error e
  | .ok name =>
    match declareVariable s.declared name .outcomeDeclaration with
    | .error e => .error e
    | .ok d => .ok (name, { s with outcomes := set s.outcomes identifier name, declared := d,
                                   variables := set s.variables name .outcome })

/-- `QTIItem.DeclareOutcome` (imsqtiv1.py:633-645).  Returns the migrated identifier. -/
def declareOutcome (s : St) (identifier : Str) : Except Err (Str × St) :=
  if has s.outcomes identifier then .error .qtiException else newOutcome s identifier

/-- `QTIItem.GetOutcome(identifier).GetIdentifier()` (imsqtiv1.py:652-667), auto-declaring.
`self.variables[...][0]` needs a pair. -/
def getOutcome (s : St) (identifier : Str) : Except Err (Str × St) :=
  match get s.outcomes identifier with
  | some name =>
    match get s.variables name with
    | some .outcome => .ok (name, s)
    | some _ => .error .typeError
    | none => .error .keyError
  | none => newOutcome s identifier

/-- `QTIItem.DeclareFeedback` (imsqtiv1.py:647-650); rules then use the name `FEEDBACK`
(imsqtiv1.py:3409-3440). -/
def declareFeedback (s : St) : Except Err (Str × St) :=
  if s.declareFeedback then .ok (feedbackName, s)
  else
    match declareVariable s.declared feedbackName .outcomeDeclaration with
    | .error e => .error e
    | .ok d => .ok (feedbackName, { s with declareFeedback := true, declared := d })

/-- `QTIItem.ResetResprocessing` (imsqtiv1.py:624-631) with
`AssessmentItem.ResetResponseProcessing` (imsqti.py:148-153), run at each `<resprocessing>`. -/
def resetResprocessing (s : St) : St :=
  { s with
    declared := s.declared.filter (fun p => p.2 ≠ .outcomeDeclaration)
    variables := s.outcomes.foldl (fun vs p => del vs p.2) s.variables
    outcomes := [] }

/-- The operations the converter performs on an item. -/
inductive Op where
  | declareResponse (identifier : Str)
  | declareFake (identifier : Str)
  | declareOutcome (identifier : Str)
  | getOutcome (identifier : Str)
  | declareFeedback
  | reset
deriving DecidableEq, Repr

/-- One operation; an exception leaves the tables unchanged (the names are chosen and the declaration
is made before anything observable is stored, except for `responses[identifier]`, which is only
stored when `DeclareVariable` cannot fail — see `no_internal_error`). -/
def step (s : St) : Op → Except Err (Str × St)
  | .declareResponse i => declareResponse .responseDeclaration s i
  | .declareFake i => declareResponse .outcomeDeclaration s i
  | .declareOutcome i => declareOutcome s i
  | .getOutcome i => getOutcome s i
  | .declareFeedback => declareFeedback s
  | .reset => .ok ([], resetResprocessing s)

/-- The state after a sequence of operations; failing operations have no effect. -/
def run (s : St) : List Op → St
  | [] => s
  | op :: ops =>
    match step s op with
    | .ok r => run r.2 ops
    | .error _ => run s ops

end Verif.Item
