import Verif.Model.TestSession

/-!
# What a test session does

Notions for statements about sessions: moving forward, which question comes next, branch rules in effect, the sections
around a question.
-/

set_option linter.unusedVariables false

namespace Verif.Spec.TestSession

open Verif Verif.TestSession

/-- An identifier that is not a closing identifier. -/
def Plain (id : Str) : Prop := id ≠ [] ∧ id.head? ≠ some '-'

/-- The closing identifier. -/
def closing (id : Str) : Str := '-' :: id

/-- At this place of the form stands an item. -/
def ItemAt {σ π : Type} (env : Env σ π) (i : Nat) (n : Node σ) : Prop :=
  ∃ id, env.form[i]? = some id ∧ Plain id ∧ env.get id = some n ∧ n.kind = .item

/-- All pre-conditions are true. -/
def Eligible {σ : Type} (n : Node σ) (s : State σ) : Prop := ∀ c ∈ n.pre, c s = .ok true

/-- Some pre-condition is false, and those before it are true. -/
def Barred {σ : Type} (n : Node σ) (s : State σ) : Prop :=
  ∃ l c r, n.pre = l ++ c :: r ∧ (∀ d ∈ l, d s = .ok true) ∧ c s = .ok false

/-- A later question is not before an earlier one, and after the end there is none. -/
def NotBack : Option Nat → Option Nat → Prop
  | some x, some y => x ≤ y
  | none, some _ => False
  | _, none => True

/-- The branch rule in effect is the first whose expression is true. -/
def InEffect {σ : Type} (n : Node σ) (s : State σ) (t : Str) : Prop :=
  ∃ l c r, n.branch = l ++ (c, t) :: r ∧ (∀ d ∈ l, d.1 s = .ok false) ∧ c s = .ok true

/-- No branch rule is in effect. -/
def NoBranch {σ : Type} (n : Node σ) (s : State σ) : Prop := ∀ d ∈ n.branch, d.1 s = .ok false

/-- The first place after `q` that has some property. -/
def FirstAfter (P : Nat → Prop) (q p : Nat) : Prop := q < p ∧ P p ∧ ∀ i, q < i → i < p → ¬ P i

/-- Components in which every section and part that begins also ends. -/
inductive Balanced {σ : Type} (get : Str → Option (Node σ)) : List Str → Prop where
  | nil : Balanced get []
  | item {id n rest} : Plain id → get id = some n → n.kind = .item → Balanced get rest → Balanced get (id :: rest)
  | group {id n inner rest} : Plain id → get id = some n → n.kind ≠ .item → Balanced get inner → Balanced get rest →
      Balanced get (id :: inner ++ closing id :: rest)

/-- The section or part that begins at place `s` ends after place `q`. -/
def Encloses {σ : Type} (get : Str → Option (Node σ)) (form : List Str) (s q : Nat) : Prop :=
  ∃ a id n inner b, form = a ++ id :: (inner ++ closing id :: b) ∧ Plain id ∧ get id = some n ∧ n.kind ≠ .item ∧
    Balanced get inner ∧ a.length = s ∧ s < q ∧ q ≤ s + inner.length

/-- The key a request presents. -/
def keyOf {π : Type} : Event π → Str
  | .begin k _ => k
  | .save k _ _ => k
  | .submit k _ _ => k

/-- The time of a request. -/
def timeOf {π : Type} : Event π → Rat
  | .begin _ t => t
  | .save _ _ t => t
  | .submit _ _ t => t

/-- The request begins the session. -/
def isBegin {π : Type} : Event π → Bool
  | .begin _ _ => true
  | _ => false

/-- Requests that take a session from `s` to `s'`, where each is refused because of its key, or is handled while the
place of the current question has the property `P`. -/
inductive During {σ π : Type} (env : Env σ π) (P : Nat → Prop) : Sess σ → List (Event π) → Sess σ → Prop where
  | nil {s} : During env P s [] s
  | refused {s s' e es} : keyOf e ≠ s.key → During env P s es s' → During env P s (e :: es) s'
  | handled {s s1 s' e es q} : isBegin e = false → s.cur = some q → P q → step env s e = (s1, none) →
      During env P s1 es s' → During env P s (e :: es) s'

/-- The session after some requests. -/
def after {σ π : Type} (env : Env σ π) (s : Sess σ) : List (Event π) → Sess σ
  | [] => s
  | e :: es => after env (step env s e).1 es

/-- The keys of the requests that were not refused. -/
def accepted {σ π : Type} (env : Env σ π) (s : Sess σ) : List (Event π) → List Str
  | [] => []
  | e :: es => if keyOf e = s.key then keyOf e :: accepted env (step env s e).1 es
    else accepted env (step env s e).1 es

end Verif.Spec.TestSession
