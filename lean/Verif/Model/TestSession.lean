import Verif.Model.TestForm

/-!
# Model of test sessions

/repo/pyslet/pyslet/qtiv2/variables.py: `TestSessionState`, and the pre-conditions and branch rules of
/repo/pyslet/pyslet/qtiv2/tests.py.  What an item does with the answers to it is any function on a store of values;
so are expressions.  HTML is not modelled, except that no page can be made for parts that are not linear or not
submitted question by question.  An exception leaves the changes made before it: methods give the state and perhaps
an exception.
-/

set_option linter.unusedVariables false

namespace Verif.TestSession

open Verif

/-- The exceptions: `SessionKeyExpired`, `SessionKeyMismatch` (variables.py:17-23), `ProcessingError`, those of Python
and any other that comes from an item or an expression. -/
inductive SessErr where
  | keyExpired | keyMismatch | processing | notImplemented | keyError | indexError | typeError | raised (n : Nat)
deriving DecidableEq

/-- The values of a session: `duration` of each namespace, by its place in the form, and the rest. -/
structure State (σ : Type) where
  store : σ
  dur : Nat → Option Rat

/-- The expression of a pre-condition or branch rule, evaluated (processing.py:520-540). -/
abbrev Cond (σ : Type) := State σ → Except SessErr Bool

/-- The classes of `test.parts`. -/
inductive Kind where
  | part | sect | item
deriving DecidableEq

/-- `TestPart`, `AssessmentSection`, `AssessmentItemRef` (tests.py:149-226, 278-401): `linear` and `individual` are the
modes of the test part it is in or is, `partId` its identifier. -/
structure Node (σ : Type) where
  kind : Kind
  linear : Bool
  individual : Bool
  partId : Str
  pre : List (Cond σ)
  branch : List (Cond σ × Str)

/-- A test, a form of it, the items and the way keys are made of the time. -/
structure Env (σ π : Type) where
  form : List Str
  get : Str → Option (Node σ)
  /-- `SetOutcomeDefaults`. -/
  defaults : σ → σ
  /-- `SetTemplateDefaults`, `SelectClone`, `BeginSession` of the item at a place. -/
  present : Nat → σ → σ × Option SessErr
  /-- `BeginAttempt` of the item at a place. -/
  attempt : Nat → σ → σ × Option SessErr
  /-- `SaveSession` of the item at a place. -/
  save : Nat → π → σ → σ × Option SessErr
  /-- `SubmitSession` of the item at a place. -/
  submit : Nat → π → σ → σ × Option SessErr
  /-- `sha224(salt+"%.6f"%t)`. -/
  newKey : Rat → Str

/-- Conditions in order, up to the first that is false (tests.py:203-206, 328-331). -/
def conds {σ : Type} (s : State σ) : List (Cond σ) → Except SessErr Bool
  | [] => .ok true
  | c :: cs => match c s with
    | .error e => .error e
    | .ok false => .ok false
    | .ok true => conds s cs

/-- `CheckPreConditions` (tests.py:200-206, 321-331); `None` counts as false. -/
def checkPre {σ : Type} (n : Node σ) (s : State σ) : Except SessErr Bool :=
  if n.kind ≠ .part ∧ n.linear = false then .ok false else conds s n.pre

/-- The test of a target (tests.py:217-226, 345-356). -/
def checkTarget {σ : Type} (get : Str → Option (Node σ)) (n : Node σ) (t : Str) : Except SessErr (Option Str) :=
  if n.kind = .part then
    if t = "EXIT_TEST".toList then .ok (some t)
    else match get t with
      | none => .error .processing
      | some m => if m.kind = .part then .ok (some t) else .error .processing
  else if t = "EXIT_SECTION".toList ∨ t = "EXIT_TESTPART".toList ∨ t = "EXIT_TEST".toList then .ok (some t)
  else match get t with
    | none => .error .processing
    | some m => if m.kind = .part then .error .processing
      else if m.partId = n.partId then .ok (some t) else .error .processing

/-- The first rule in effect (tests.py:215-226, 343-356). -/
def firstRule {σ : Type} (get : Str → Option (Node σ)) (n : Node σ) (s : State σ) :
    List (Cond σ × Str) → Except SessErr (Option Str)
  | [] => .ok none
  | (c, t) :: rs => match c s with
    | .error e => .error e
    | .ok false => firstRule get n s rs
    | .ok true => checkTarget get n t

/-- `GetBranchTarget` (tests.py:208-226, 333-356). -/
def getBranchTarget {σ : Type} (get : Str → Option (Node σ)) (n : Node σ) (s : State σ) : Except SessErr (Option Str) :=
  if n.kind ≠ .part ∧ n.linear = false then .ok none else firstRule get n s n.branch

/-- The loop of `_BranchTarget` (variables.py:2041-2055): the components from place `q` on. -/
def scan {σ : Type} (get : Str → Option (Node σ)) (target : Str) : List Str → Nat → Except SessErr Nat
  | [], q => .ok q
  | id :: rest, q =>
    if target = id then .ok q
    else match id with
      | [] => .error .indexError
      | c :: name =>
        if c = '-' then
          if target = "EXIT_SECTION".toList then .ok (q + 1)
          else if target = "EXIT_TESTPART".toList then match get name with
            | none => .error .keyError
            | some m => if m.kind = .part then .ok (q + 1) else scan get target rest (q + 1)
          else scan get target rest (q + 1)
        else scan get target rest (q + 1)

/-- The identifier of a component without `-` (variables.py:2031-2033). -/
def bare : Str → Str
  | [] => []
  | c :: name => if c = '-' then name else c :: name

/-- `_BranchTarget` (variables.py:2030-2055). -/
def branchTarget {σ π : Type} (env : Env σ π) (s : State σ) (q : Nat) : Except SessErr Nat :=
  match env.form[q]? with
  | none => .error .indexError
  | some [] => .error .indexError
  | some (c :: name) => match env.get (bare (c :: name)) with
    | none => .error .keyError
    | some n => match getBranchTarget env.get n s with
      | .error e => .error e
      | .ok none => .ok (q + 1)
      | .ok (some t) => if t = "EXIT_TEST".toList then .ok env.form.length
        else scan env.get t (env.form.drop (q + 1)) (q + 1)

theorem scan_ge {σ : Type} (get : Str → Option (Node σ)) (t : Str) : ∀ (l : List Str) (q j : Nat),
    scan get t l q = .ok j → q ≤ j
  | [], q, j, h => by injection h with h; omega
  | id :: rest, q, j, h => by
    have ih : scan get t rest (q + 1) = .ok j → q ≤ j := fun h => by have := scan_ge get t rest (q + 1) j h; omega
    unfold scan at h
    split at h
    · injection h with h; omega
    · split at h
      · cases h
      · split at h
        · split at h
          · injection h with h; omega
          · split at h
            · split at h
              · cases h
              · split at h
                · injection h with h; omega
                · exact ih h
            · exact ih h
        · exact ih h

/-- Branching goes forward. -/
theorem branchTarget_gt {σ π : Type} {env : Env σ π} {s : State σ} {q j : Nat} (hq : q < env.form.length)
    (h : branchTarget env s q = .ok j) : q < j := by
  unfold branchTarget at h
  split at h
  · cases h
  · cases h
  · split at h
    · cases h
    · split at h
      · cases h
      · injection h with h; omega
      · split at h
        · injection h with h; omega
        · have := scan_ge _ _ _ _ _ h; omega

/-- `present` of the item at a place; its `BeginSession` sets `duration` to zero (variables.py:1762). -/
def presentItem {σ π : Type} (env : Env σ π) (i : Nat) (s : State σ) : State σ × Option SessErr :=
  match env.present i s.store with
  | (st, some e) => ({ s with store := st }, some e)
  | (st, none) => (⟨st, fun k => if k = i then some 0 else s.dur k⟩, none)

/-- The loop over the items of a nonlinear part (variables.py:2086-2102). -/
def presentAll {σ π : Type} (env : Env σ π) (endId : Str) : List Str → Nat → State σ → State σ × Option SessErr
  | [], j, s => (s, some .indexError)
  | id :: rest, j, s =>
    if id = endId then (s, none)
    else match id with
      | [] => (s, some .indexError)
      | c :: name =>
        if c = '-' then presentAll env endId rest (j + 1) s
        else match env.get (c :: name) with
          | none => (s, some .keyError)
          | some n => if n.kind = .item then match presentItem env j s with
              | (s', some e) => (s', some e)
              | (s', none) => presentAll env endId rest (j + 1) s'
            else presentAll env endId rest (j + 1) s

/-- The loop of `_NextQuestion` (variables.py:2067-2118), from place `i`: the place of the question, or none at the
end of the test. -/
def nextFrom {σ π : Type} (env : Env σ π) (s : State σ) (i : Nat) : State σ × Except SessErr (Option Nat) :=
  if hi : i < env.form.length then
    match env.form[i] with
    | [] => (s, .error .indexError)
    | c :: name =>
      if c = '-' then
        match hb : branchTarget env s i with
        | .error e => (s, .error e)
        | .ok j => nextFrom env s j
      else match env.get (c :: name) with
        | none => (s, .error .keyError)
        | some n => match checkPre n s with
          | .error e => (s, .error e)
          | .ok false => nextFrom env s (i + 1)
          | .ok true => match n.kind with
            | .part =>
              if n.linear then nextFrom env s (i + 1)
              else match presentAll env ('-' :: c :: name) (env.form.drop (i + 1)) (i + 1) s with
                | (s', some e) => (s', .error e)
                | (s', none) => nextFrom env s' (i + 1)
            | .sect => nextFrom env s (i + 1)
            | .item =>
              if n.linear then match presentItem env i s with
                | (s', some e) => (s', .error e)
                | (s', none) => (s', .ok (some i))
              else (s, .ok (some i))
  else (s, .ok none)
termination_by env.form.length - i
decreasing_by
  all_goals first
    | (have := branchTarget_gt hi hb; omega)
    | omega

/-- `_NextQuestion` (variables.py:2057-2118). -/
def nextQuestion {σ π : Type} (env : Env σ π) (s : State σ) : Option Nat → State σ × Except SessErr (Option Nat)
  | none => (s, .ok none)
  | some 0 => nextFrom env s 1
  | some (q + 1) => match branchTarget env s (q + 1) with
    | .error e => (s, .error e)
    | .ok j => nextFrom env s j

/-- `TestSessionState`, as far as it changes: values, `cQuestion`, `t`, `key`, `prevKey`, `keyMap`. -/
structure Sess (σ : Type) where
  state : State σ
  cur : Option Nat
  t : Rat
  key : Str
  prevKey : Str
  used : List Str

/-- `EventUpdate` (variables.py:1995-2013), with the time read. -/
def eventUpdate {σ π : Type} (env : Env σ π) (s : Sess σ) (key : Str) (now : Rat) : Sess σ × Except SessErr Rat :=
  if s.key ≠ key then
    if key ∈ s.used then (s, .error .keyExpired) else (s, .error .keyMismatch)
  else if s.key = [] then ({ s with t := now, key := env.newKey now }, .ok 0)
  else ({ s with used := s.key :: s.used, prevKey := s.key, t := now, key := env.newKey now }, .ok (now - s.t))

/-- `__init__` (variables.py:1943-1993): all durations are NULL. -/
def init {σ π : Type} (env : Env σ π) (store : σ) (now : Rat) : Sess σ :=
  { (eventUpdate env ⟨⟨store, fun _ => none⟩, some 0, 0, [], [], []⟩ [] now).1 with cur := some 0 }

/-- `AddDuration`, the loop (variables.py:2253-2271): the places before `i`, the nearest first. -/
def addOpen {σ : Type} (get : Str → Option (Node σ)) (form : List Str) (dt : Rat) : Nat → Nat → (Nat → Option Rat) →
    (Nat → Option Rat) × Option SessErr
  | 0, _, d => (d, none)
  | 1, _, d => (d, none)
  | i + 2, ignore, d => match form[i + 1]? with
    | none => (d, some .indexError)
    | some [] => (d, some .indexError)
    | some (c :: name) =>
      if c = '-' then addOpen get form dt (i + 1) (ignore + 1) d
      else match get (c :: name) with
        | none => (d, some .keyError)
        | some n =>
          if n.kind = .item then addOpen get form dt (i + 1) ignore d
          else if ignore = 0 then
            addOpen get form dt (i + 1) 0 (fun k => if k = i + 1 then some ((d k).getD 0 + dt) else d k)
          else addOpen get form dt (i + 1) (ignore - 1) d

/-- `AddDuration` (variables.py:2247-2276). -/
def addDuration {σ π : Type} (env : Env σ π) (s : State σ) (cur : Option Nat) (dt : Rat) : State σ × Option SessErr :=
  match cur with
  | none => (s, none)
  | some 0 => (s, none)
  | some (q + 1) => match s.dur (q + 1) with
    | none => (s, some .typeError)
    | some v =>
      match addOpen env.get env.form dt (q + 1) 0 (fun k => if k = q + 1 then some (v + dt) else s.dur k) with
      | (d, some e) => ({ s with dur := d }, some e)
      | (d, none) => match d 0 with
        | none => ({ s with dur := d }, some .typeError)
        | some v0 => ({ s with dur := fun k => if k = 0 then some (v0 + dt) else d k }, none)

/-- The test part of the current question: whether pages can be made for it (variables.py:2216-2245). -/
def navigation {σ π : Type} (env : Env σ π) (cur : Option Nat) : Option SessErr :=
  match cur with
  | none => none
  | some 0 => none
  | some (q + 1) => match env.form[q + 1]? with
    | none => some .indexError
    | some id => match env.get id with
      | none => some .keyError
      | some n => if n.linear && n.individual then none else some .notImplemented

/-- The end of `BeginSession` and `SubmitSession` (variables.py:2132-2142, 2196-2205): the attempt at the current
question, and the page. -/
def showPage {σ π : Type} (env : Env σ π) (s : Sess σ) : Sess σ × Option SessErr :=
  match s.cur with
  | none => (s, none)
  | some 0 => (s, none)
  | some (q + 1) => match env.attempt (q + 1) s.state.store with
    | (st, some e) => ({ s with state := { s.state with store := st } }, some e)
    | (st, none) => ({ s with state := { s.state with store := st } }, navigation env s.cur)

/-- Moving on (variables.py:2131, 2190): an exception leaves the question. -/
def moveOn {σ π : Type} (env : Env σ π) (s : Sess σ) : Sess σ × Option SessErr :=
  match nextQuestion env s.state s.cur with
  | (st, .error e) => ({ s with state := st }, some e)
  | (st, .ok c) => showPage env { s with state := st, cur := c }

/-- The requests a session gets, with the key presented and the time. -/
inductive Event (π : Type) where
  | begin (key : Str) (now : Rat)
  | save (key : Str) (params : π) (now : Rat)
  | submit (key : Str) (params : π) (now : Rat)

/-- `BeginSession` (variables.py:2121-2142). -/
def beginSession {σ π : Type} (env : Env σ π) (s : Sess σ) (key : Str) (now : Rat) : Sess σ × Option SessErr :=
  match eventUpdate env s key now with
  | (s1, .error e) => (s1, some e)
  | (s1, .ok _) => moveOn env { s1 with state :=
      ⟨env.defaults s1.state.store, fun k => if k = 0 then some 0 else s1.state.dur k⟩ }

/-- `SaveSession` (variables.py:2153-2165). -/
def saveSession {σ π : Type} (env : Env σ π) (s : Sess σ) (key : Str) (params : π) (now : Rat) :
    Sess σ × Option SessErr :=
  match eventUpdate env s key now with
  | (s1, .error e) => (s1, some e)
  | (s1, .ok dt) => match addDuration env s1.state s1.cur dt with
    | (st, some e) => ({ s1 with state := st }, some e)
    | (st, none) => match s1.cur with
      | none => ({ s1 with state := st }, none)
      | some 0 => ({ s1 with state := st }, none)
      | some (q + 1) => match env.save (q + 1) params st.store with
        | (x, some e) => ({ s1 with state := { st with store := x } }, some e)
        | (x, none) => ({ s1 with state := { st with store := x } }, navigation env s1.cur)

/-- `SubmitSession` (variables.py:2167-2205). -/
def submitSession {σ π : Type} (env : Env σ π) (s : Sess σ) (key : Str) (params : π) (now : Rat) :
    Sess σ × Option SessErr :=
  match eventUpdate env s key now with
  | (s1, .error e) => (s1, some e)
  | (s1, .ok dt) => match addDuration env s1.state s1.cur dt with
    | (st, some e) => ({ s1 with state := st }, some e)
    | (st, none) => match s1.cur with
      | none => ({ s1 with state := st }, none)
      | some 0 => ({ s1 with state := st }, none)
      | some (q + 1) => match env.form[q + 1]? with
        | none => ({ s1 with state := st }, some .indexError)
        | some id => match env.get id with
          | none => ({ s1 with state := st }, some .keyError)
          | some n =>
            if n.linear then
              if n.individual then match env.submit (q + 1) params st.store with
                | (x, some e) => ({ s1 with state := { st with store := x } }, some e)
                | (x, none) => moveOn env { s1 with state := { st with store := x } }
              else ({ s1 with state := { st with store := (env.save (q + 1) params st.store).1 } },
                some ((env.save (q + 1) params st.store).2.getD .notImplemented))
            else ({ s1 with state := st }, some .notImplemented)

/-- One request. -/
def step {σ π : Type} (env : Env σ π) (s : Sess σ) : Event π → Sess σ × Option SessErr
  | .begin key now => beginSession env s key now
  | .save key params now => saveSession env s key params now
  | .submit key params now => submitSession env s key params now

/-- The sessions after each of some requests. -/
def history {σ π : Type} (env : Env σ π) (s : Sess σ) : List (Event π) → List (Sess σ)
  | [] => []
  | e :: es => (step env s e).1 :: history env (step env s e).1 es

/-- `varName.split('.')` at the first full stop. -/
def splitDot : Str → Option (Str × Str)
  | [] => none
  | c :: cs => if c = '.' then some ([], cs) else match splitDot cs with
    | none => none
    | some (a, b) => some (c :: a, b)

/-- `GetNamespace` (variables.py:2278-2295): the place of the namespace, and the name in it. -/
def getNamespace (components : Verif.TestForm.Slots) (name : Str) : Except SessErr (Nat × Str) :=
  match splitDot name with
  | none => .ok (0, name)
  | some (a, b) => match Verif.TestForm.find components a with
    | [] => .error .keyError
    | i :: _ => .ok (i, b)

end Verif.TestSession
