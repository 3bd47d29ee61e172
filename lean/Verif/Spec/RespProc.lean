import Verif.Model.RespProc

/-! # Meaning of response processing, in the source (QTI 1.2) and target (QTI 2) formats -/

namespace Verif.Spec

open Verif Verif.RP

variable {E A σ : Type} (test : E → σ → Bool) (act : A → σ → σ)

/-- Perform actions in order. -/
def performAll (as : List A) (s : σ) : σ := as.foldl (fun s a => act a s) s

/-- QTI 1.2: respconditions are tried in order; one that holds performs its actions, and then
processing stops unless the condition is marked `continue`. -/
def runConditions : List (E × List A × Bool) → σ → σ
  | [], s => s
  | (e, as, continueFlag) :: cs, s =>
    if test e s then
      if continueFlag then runConditions cs (performAll act as s) else performAll act as s
    else runConditions cs s

/-- The actions of the first branch that holds. -/
def firstBranch : List (E × List A) → σ → Option (List A)
  | [], _ => none
  | (e, as) :: bs, s => if test e s then some as else firstBranch bs s

mutual
/-- QTI 2: a responseCondition performs the first of its if / else-if branches whose expression is
true, or else its else-branch. -/
def runRule : Rule E A → σ → σ
  | .cond e as elseIfs elseRules, s =>
    match firstBranch test ((e, as) :: elseIfs) s with
    | some as => performAll act as s
    | none => runElse elseRules s
/-- The else-branch, if any. -/
def runElse : Option (List (Rule E A)) → σ → σ
  | none, s => s
  | some rs, s => runRules rs s
/-- Rules run in order. -/
def runRules : List (Rule E A) → σ → σ
  | [], s => s
  | r :: rs, s => runRules rs (runRule r s)
end

end Verif.Spec
