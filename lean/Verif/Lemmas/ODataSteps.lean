import Verif.Lemmas.ODataTrunc

/-!
# Steps of the evaluation of OData expressions
-/

namespace Verif.OData.Eval

open Verif

theorem eval_two {E : Env} {W : World} {ctx : Option Value} {op : Oper} {x y : Expr} {l r : Value}
    (hx : eval E W ctx x = .ok l) (hy : eval E W ctx y = .ok r) (h1 : op ≠ .member) (h2 : op ≠ .cast) (h3 : op ≠ .isof) :
    eval E W ctx (.binary op [x, y]) = binary E W op l r := by
  rw [eval, hx]
  show (match op with
    | .member => eval E W (some l) y
    | .cast => (eval E W ctx y).bind fun r => castTo E W (some l) r
    | .isof => (eval E W ctx y).bind fun r => isOf E W (some l) r
    | op => (eval E W ctx y).bind fun r => binary E W op l r) = _
  cases op <;> first | (exact absurd rfl h1) | (exact absurd rfl h2) | (exact absurd rfl h3) | (rw [hy]; rfl)

theorem eval_one {E : Env} {W : World} {ctx : Option Value} {op : Oper} {x : Expr} {v : Value}
    (hx : eval E W ctx x = .ok v) :
    eval E W ctx (.unary op [x]) = (match op with
      | .negate => negate E v
      | .boolNot => boolNot v
      | _ => .error .key) := by
  rw [eval, hx]
  rfl

/-- The operands of arithmetic at work. -/
theorem arithmetic_eq {E : Env} {op : Oper} {l r l' r' : SVal} {t : Ty} (hc : Common l.ty r.ty (some t))
    (ht : t ∈ arithTypes) (hl : l.cast E t = .ok l') (hr : r.cast E t = .ok r') :
    arithmetic E op (.simple l) (.simple r) = (match op with
      | .div => computeDiv E t l' r'
      | .mod => computeMod E t l' r'
      | _ => compute E op t l' r').map .simple := by
  rw [arithmetic, promoteOperands, promote_ok.mpr hc]
  show (if t ∈ arithTypes then _ else _) = _
  rw [if_pos ht, hl]
  show Except.bind (SVal.cast E r t) _ = _
  rw [hr]
  have fin : ∀ z : Except Raise SVal, Except.bind z (fun v => .ok (Value.simple v)) = z.map .simple := by
    intro z
    cases z <;> rfl
  cases op <;> exact fin _

/-- An integer that is promoted to `Int32` or `Int64`. -/
theorem cast_int {E : Env} (hE : Faithful E) {l : SVal} {t : Ty} {a : Int} (hl : l.Fits) (ha : l.int = some a)
    (hu : Up l.ty t) (ht : t = .int32 ∨ t = .int64) : l.cast E t = .ok (ofInt t a) := by
  obtain ⟨v', hv, h1, h2, h3, h4, h5⟩ := cast_up hE hu hl
  rw [hv]
  congr 1
  have hnum : v'.number = some (a : Rat) := by
    by_cases h : l.ty = some t
    · rw [h5 h]
      cases l <;> simp only [SVal.int, Option.some.injEq] at ha <;> first | (subst ha; rfl) | cases ha
    · rw [h4 h (by rcases ht with rfl | rfl <;> decide) (by rcases ht with rfl | rfl <;> decide)]
      cases l <;> simp only [SVal.int, Option.some.injEq] at ha <;> first | (subst ha; rfl) | cases ha
  rcases ht with rfl | rfl
  · cases v' <;> simp only [SVal.ty, Option.some.injEq] at h1 <;> first | cases h1 | skip
    · cases hnum
    · rename_i n
      simp only [SVal.number, Option.some.injEq] at hnum
      rw [Rat.intCast_inj.mp hnum]
      rfl
  · cases v' <;> simp only [SVal.ty, Option.some.injEq] at h1 <;> first | cases h1 | skip
    · cases hnum
    · rename_i n
      simp only [SVal.number, Option.some.injEq] at hnum
      rw [Rat.intCast_inj.mp hnum]
      rfl

end Verif.OData.Eval
