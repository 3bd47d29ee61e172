import Verif.Lemmas.ODataGood
import Verif.Props.ODataArith

/-!
# What an OData expression depends on, and which errors it raises
-/

namespace Verif.Props

open Verif Verif.OData Verif.OData.Eval

/-! ## C151: what the value depends on -/

mutual
theorem eval_depends {E : Env} {W : World} {c c' : Option Value} : ∀ (x : Expr), usesContext x = false →
    (∀ n ∈ names x, property W c n = property W c' n) → eval E W c x = eval E W c' x
  | .absent, _, _ => rfl
  | .lit _, _, _ => rfl
  | .prop n, _, h => h n (by simp [names])
  | .unary op [], _, _ => rfl
  | .unary op (x :: rest), hu, h => by
    have := eval_depends (E := E) x (by simp only [usesContext, usesContextList, Bool.or_eq_false_iff] at hu; exact hu.1)
      (fun n hn => h n (by simp only [names, namesList, List.mem_append]; exact .inl hn))
    rw [eval, eval, this]
  | .binary op [], _, _ => rfl
  | .binary op [x], hu, h => by
    have hop : op ≠ .cast ∧ op ≠ .isof := by
      constructor <;> (rintro rfl; simp [usesContext] at hu)
    have hx : usesContext x = false := by
      cases op <;> simp_all [usesContext, usesContextList]
    have := eval_depends (E := E) x hx (fun n hn => h n (by cases op <;> simp [names, namesList, hn]))
    rw [eval, eval, this]
    cases eval E W c' x with
    | error e => rfl
    | ok v => cases op <;> first | rfl | exact absurd rfl hop.1 | exact absurd rfl hop.2
  | .binary op (x :: y :: rest), hu, h => by
    have hx : usesContext x = false := by
      cases op <;> simp_all [usesContext, usesContextList]
    have ex := eval_depends (E := E) x hx (fun n hn => h n (by cases op <;> simp [names, namesList, hn]))
    by_cases hm : op = .member
    · subst hm
      rw [eval, eval, ex]
    · have hy : usesContext y = false := by
        cases op <;> simp_all [usesContext, usesContextList]
      have ey := eval_depends (E := E) y hy (fun n hn => h n (by
        cases op <;> first | exact absurd rfl hm | simp [names, namesList, hn]))
      rw [eval, eval, ex, ey]
  | .call m args, hu, h => by
    have := evalList_depends (E := E) args (by simpa [usesContext] using hu) (fun n hn => h n (by simpa [names] using hn))
    rw [eval, eval, this]

theorem evalList_depends {E : Env} {W : World} {c c' : Option Value} : ∀ (xs : List Expr), usesContextList xs = false →
    (∀ n ∈ namesList xs, property W c n = property W c' n) → evalList E W c xs = evalList E W c' xs
  | [], _, _ => rfl
  | x :: rest, hu, h => by
    simp only [usesContextList, Bool.or_eq_false_iff] at hu
    have h1 := eval_depends (E := E) x hu.1 (fun n hn => h n (by simp [namesList, hn]))
    have h2 := evalList_depends (E := E) rest hu.2 (fun n hn => h n (by simp [namesList, hn]))
    rw [evalList, evalList, h1, h2]
end

/-- The value of an expression depends on the properties it names, and on no other property of the entity or complex value it
is evaluated for, unless it has a `cast` or `isof` of that value itself. -/
theorem value_depends {E : Env} {W : World} {x : Expr} {c c' : Option Value} (hu : usesContext x = false)
    (h : ∀ n ∈ names x, eval E W c (.prop n) = eval E W c' (.prop n)) : eval E W c x = eval E W c' x :=
  eval_depends x hu fun n hn => by
    have := h n hn
    rwa [eval, eval] at this

/-- An expression that names no property is the same everywhere. -/
theorem value_constant {E : Env} {W : World} {x : Expr} (hu : usesContext x = false) (hn : names x = []) (c c' : Option Value) :
    eval E W c x = eval E W c' x :=
  value_depends hu fun n h => by rw [hn] at h; cases h

/-- `a add 1` for two values that have the same `a` and different `b`. -/
theorem depends_example {E : Env} {W : World} :
    names (.binary .add [.prop ['a'], .lit (.int32 1)]) = [['a']] ∧
      usesContext (.binary .add [.prop ['a'], .lit (.int32 1)]) = false ∧
      (∀ n ∈ names (.binary .add [.prop ['a'], .lit (.int32 1)]),
        eval E W (some (.complex [(['a'], .simple (.int32 2)), (['b'], .simple (.int32 3))])) (.prop n) =
          eval E W (some (.complex [(['a'], .simple (.int32 2))])) (.prop n)) ∧
      eval E W (some (.complex [(['a'], .simple (.int32 2))])) (.binary .add [.prop ['a'], .lit (.int32 1)]) =
        .ok (.simple (.int32 3)) := by
  refine ⟨rfl, rfl, ?_, rfl⟩
  intro n hn
  rw [show names (.binary .add [.prop ['a'], .lit (.int32 1)]) = [['a']] from rfl, List.mem_singleton] at hn
  subst hn
  rfl

/-! ## C150: the errors -/

theorem good_castTo {E : Env} {W : World} (hE : Faithful E) {v : SVal} {s : Str} (hv : v.Fits) :
    Good (castTo E W (some (.simple v)) (.simple (.string s))) := by
  rw [castTo]
  split
  · exact good_nullV
  · show Good (match decodeType E s with
      | none => _
      | some t => _)
    cases decodeType E s with
    | none => exact good_evalV
    | some t =>
      show Good (Except.bind (promoteTypes (some t) v.ty) _)
      cases hp : promoteTypes (some t) v.ty with
      | error e => rw [(promote_error hp).1]; exact good_evalV
      | ok t' =>
        show Good (if some t ≠ t' then _ else _)
        split
        · exact good_evalV
        · rename_i h
          have e : t' = some t := Classical.byContradiction fun h' => h fun h'' => h' h''.symm
          subst e
          exact (good_cast hE (common_up (promote_ok.mp hp)).2 hv).map

theorem good_isOf {E : Env} {W : World} {v : SVal} {s : Str} :
    Good (isOf E W (some (.simple v)) (.simple (.string s))) := by
  rw [isOf]
  split
  · exact good_boolV
  · show Good (match decodeType E s with
      | none => _
      | some t => _)
    cases decodeType E s with
    | none => exact good_evalV
    | some t => exact good_boolV

theorem good_binary {E : Env} {W : World} (hE : Faithful E) {op : Oper} {l r : SVal} (hl : l.Fits) (hr : r.Fits)
    (h1 : op ≠ .member) (h2 : op ≠ .paren) (h3 : op ≠ .methodCall) (h4 : op ≠ .negate) (h5 : op ≠ .boolNot)
    (h6 : op ≠ .cast) (h7 : op ≠ .isof) : Good (binary E W op (.simple l) (.simple r)) := by
  cases op
  case mul => exact good_arithmetic hE .mul hl hr
  case div => exact good_arithmetic hE .div hl hr
  case mod => exact good_arithmetic hE .mod hl hr
  case add => exact good_arithmetic hE .add hl hr
  case sub => exact good_arithmetic hE .sub hl hr
  case lt => exact good_relate hE .lt hl hr
  case gt => exact good_relate hE .gt hl hr
  case le => exact good_relate hE .le hl hr
  case ge => exact good_relate hE .ge hl hr
  case boolAnd => exact good_logic .boolAnd l r
  case boolOr => exact good_logic .boolOr l r
  case eq => exact good_equal hE (fun b => b) hl hr
  case ne => exact good_equal hE (fun b => !b) hl hr
  case member => exact absurd rfl h1
  case paren => exact absurd rfl h2
  case methodCall => exact absurd rfl h3
  case negate => exact absurd rfl h4
  case boolNot => exact absurd rfl h5
  case cast => exact absurd rfl h6
  case isof => exact absurd rfl h7

theorem good_bindV {z : Except Raise Value} {f : Value → Except Raise Value} (h : Good z)
    (hf : ∀ s, s.Fits → Good (f (.simple s))) : Good (z >>= f) := by
  cases z with
  | ok v =>
    obtain ⟨s, rfl, hs⟩ := h
    exact hf s hs
  | error e => exact h

mutual
theorem good_eval_expr {E : Env} {W : World} {ctx : Option Value} (hE : Faithful E) : ∀ (x : Expr), Complete x → LitFits E x →
    (∀ n ∈ names x, ∃ v, property W ctx n = .ok (.simple v) ∧ v.Fits) → Good (eval E W ctx x)
  | .absent, h, _, _ => h.elim
  | .lit v, _, h, _ => ⟨_, rfl, h⟩
  | .prop n, _, _, h => by
    obtain ⟨v, h1, h2⟩ := h n (by simp [names])
    rw [eval, h1]
    exact ⟨v, rfl, h2⟩
  | .unary op [], h, _, _ => by
    have := h.2.1
    simp at this
  | .unary op (x :: rest), h, hf, hn => by
    obtain ⟨h1, h2, h3, _⟩ := h
    rw [LitFits, LitFitsList] at hf
    rw [eval]
    refine good_bindV (good_eval_expr hE x h3 hf.1 (fun n hm => hn n (by simp [names, namesList, hm]))) fun s hs => ?_
    rcases h1 with rfl | rfl
    · exact good_negate hE hs
    · exact good_not s
  | .binary op [], h, _, _ => by
    have := h.2.2.2.2.2.1
    simp at this
  | .binary op [x], h, _, _ => by
    have := h.2.2.2.2.2.1
    simp at this
  | .binary op (x :: y :: rest), h, hf, hn => by
    obtain ⟨h1, h2, h3, h4, h5, h6, ⟨h7, h8, _⟩, h9⟩ := h
    rw [LitFits, LitFitsList, LitFitsList] at hf
    have hnames : ∀ n, n ∈ names x ∨ n ∈ names y → n ∈ names (.binary op (x :: y :: rest)) := by
      intro n hm
      cases op <;> first | exact absurd rfl h1 | (rcases hm with hm | hm <;> simp [names, namesList, hm])
    have gx := good_eval_expr (ctx := ctx) (W := W) hE x h7 hf.1 (fun n hm => hn n (hnames n (.inl hm)))
    have gy := good_eval_expr (ctx := ctx) (W := W) hE y h8 hf.2.1 (fun n hm => hn n (hnames n (.inr hm)))
    rw [eval]
    refine good_bindV gx fun s hs => ?_
    by_cases hc : op = .cast ∨ op = .isof
    · obtain ⟨x', t, e⟩ := h9 hc
      injection e with e1 e2
      injection e2 with e2 e3
      subst e2
      rcases hc with rfl | rfl
      · show Good (Except.bind (eval E W ctx (.lit (.string t))) _)
        rw [eval]
        exact good_castTo (W := W) hE hs
      · show Good (Except.bind (eval E W ctx (.lit (.string t))) _)
        rw [eval]
        exact good_isOf (W := W)
    · have hb : Good (eval E W ctx y >>= fun r => binary E W op (.simple s) r) :=
        good_bindV gy fun r hr => good_binary hE hs hr h1 h2 h3 h4 h5 (fun h => hc (.inl h)) (fun h => hc (.inr h))
      cases op <;> first | exact absurd rfl h1 | exact absurd (.inl rfl) hc | exact absurd (.inr rfl) hc | exact hb
  | .call m args, h, hf, hn => by
    rw [eval]
    rw [LitFits] at hf
    rcases good_eval_list (ctx := ctx) (W := W) hE args h hf (fun n hm => hn n (by simpa [names] using hm)) with
      ⟨vs, h1, h2⟩ | ⟨e, h1, h2⟩
    · rw [h1]
      exact good_method hE m h2
    · rw [h1]
      exact h2

theorem good_eval_list {E : Env} {W : World} {ctx : Option Value} (hE : Faithful E) : ∀ (xs : List Expr), CompleteList xs →
    LitFitsList E xs → (∀ n ∈ namesList xs, ∃ v, property W ctx n = .ok (.simple v) ∧ v.Fits) →
    (∃ vs, evalList E W ctx xs = .ok vs ∧ ∀ v ∈ vs, v.Fits) ∨ ∃ e, evalList E W ctx xs = .error e ∧ Known e
  | [], _, _, _ => .inl ⟨[], rfl, by simp⟩
  | x :: rest, h, hf, hn => by
    have gx := good_eval_expr (ctx := ctx) (W := W) hE x h.1 hf.1 (fun n hm => hn n (by simp [namesList, hm]))
    have gr := good_eval_list (ctx := ctx) (W := W) hE rest h.2 hf.2 (fun n hm => hn n (by simp [namesList, hm]))
    rw [evalList]
    cases hx : eval E W ctx x with
    | error e =>
      rw [hx] at gx
      exact .inr ⟨e, rfl, gx⟩
    | ok v =>
      rw [hx] at gx
      obtain ⟨s, rfl, hs⟩ := gx
      rcases gr with ⟨vs, h1, h2⟩ | ⟨e, h1, h2⟩
      · left
        refine ⟨.simple s :: vs, by rw [h1]; rfl, ?_⟩
        intro v hv
        rcases List.mem_cons.mp hv with rfl | hv
        · exact hs
        · exact h2 v hv
      · exact .inr ⟨e, by rw [h1]; rfl, h2⟩
end

/-- An expression with all its operands, whose properties are known and hold simple values, has a simple value that fits its
type, or raises `EvaluationError`, `ValueError` or `decimal.InvalidOperation`. -/
theorem evaluation_errors_partial {E : Env} {W : World} {ctx : Option Value} {x : Expr} (hE : Faithful E) (hc : Complete x)
    (hf : LitFits E x) (hn : ∀ n ∈ names x, ∃ v, eval E W ctx (.prop n) = .ok (.simple v) ∧ v.Fits) :
    (∃ v, eval E W ctx x = .ok (.simple v) ∧ v.Fits) ∨ eval E W ctx x = .error .evaluation ∨
      eval E W ctx x = .error .value ∨ eval E W ctx x = .error .invalidOperation := by
  have h := good_eval_expr (ctx := ctx) (W := W) hE x hc hf (fun n hm => by
    obtain ⟨v, h1, h2⟩ := hn n hm
    rw [eval] at h1
    exact ⟨v, h1, h2⟩)
  cases he : eval E W ctx x with
  | ok v =>
    rw [he] at h
    obtain ⟨s, rfl, hs⟩ := h
    exact .inl ⟨s, rfl, hs⟩
  | error e =>
    rw [he] at h
    rcases h with h | h | h <;> subst h
    · exact .inr (.inl rfl)
    · exact .inr (.inr (.inl rfl))
    · exact .inr (.inr (.inr rfl))

/-- `cast(a,'Edm.Int64') mul 2` in a context that has an Int32 `a`. -/
theorem evaluation_errors_example {W : World} :
    Complete (.binary .mul [.binary .cast [.prop ['a'], .lit (.string "Edm.Int64".toList)], .lit (.int32 2)]) ∧
      LitFits sampleEnv (.binary .mul [.binary .cast [.prop ['a'], .lit (.string "Edm.Int64".toList)], .lit (.int32 2)]) ∧
      eval sampleEnv W (some (.complex [(['a'], .simple (.int32 5))]))
        (.binary .mul [.binary .cast [.prop ['a'], .lit (.string "Edm.Int64".toList)], .lit (.int32 2)]) =
        .ok (.simple (.int64 10)) := by
  refine ⟨?_, ?_, ?_⟩
  · simp [Complete, CompleteList]
  · simp [LitFits, LitFitsList, ofLit, SVal.Fits, range]
  · rfl

/-- Errors other than `EvaluationError` do come through: `ValueError` from an overflow, `InvalidOperation` from `0M div 0M`,
`KeyError` from a property the entity does not have, `TypeError` from a property of a number, and `AttributeError` from the
negative of an entity. -/
theorem evaluation_errors_refuted {E : Env} {W : World} {ctx : Option Value} (hno : (W 0).data = [] ∧ (W 0).nav = []) :
    eval E W ctx (.binary .add [.lit (.int32 2147483647), .lit (.int32 1)]) = .error .value ∧
      eval E W ctx (.binary .div [.lit (.decimal false 0 0), .lit (.decimal false 0 0)]) = .error .invalidOperation ∧
      (∀ n, eval E W (some (.entity 0)) (.prop n) = .error .key) ∧
      eval E W ctx (.binary .member [.lit (.int32 1), .prop ['a']]) = .error .type ∧
      eval E W (some (.complex [(['e'], .entity 0)])) (.unary .negate [.prop ['e']]) = .error .attribute := by
  refine ⟨rfl, ?_, ?_, rfl, rfl⟩
  · have e : decimalValue false 0 (-((0 : Nat) : Int)) = 0 := by decide +kernel
    have hv : eval E W ctx (.lit (.decimal false 0 0)) = .ok (.simple (.decimal 0)) := by
      show Except.ok (Value.simple (.decimal (decimalValue false 0 (-((0 : Nat) : Int))))) = _
      rw [e]
    rw [eval_two hv hv (by decide) (by decide) (by decide)]
    rfl
  · intro n
    rw [eval]
    show (match lookup n (W 0).nav with
      | some .many => _
      | some (.one (some t)) => _
      | some (.one none) => _
      | some .broken => _
      | none => _) = _
    rw [hno.2]
    show (match lookup n (W 0).data with
      | some v => _
      | none => _) = _
    rw [hno.1]
    rfl

end Verif.Props
