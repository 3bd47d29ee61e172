import Verif.Lemmas.ODataWrite

/-!
# Writing expressions (lemmas)
-/

namespace Verif.OData

open Verif Verif.Spec.OData

theorem Denotes.down {T : Tables} {t : Str} {e : Expr} : ∀ {k j : Nat}, Denotes T k t e → j ≤ k → Denotes T j t e := by
  intro k
  induction k with
  | zero => intro j h hj; rw [Nat.le_zero.1 hj]; exact h
  | succ k ih =>
    intro j h hj
    rcases Nat.lt_or_ge k j with h1 | h1
    · rw [show j = k + 1 by omega]; exact h
    · exact ih (.up h) h1

theorem nil_blank : Blank ([] : Str) := by intro c hc; cases hc

theorem space_blank : Blank ([' '] : Str) := by intro c hc; simp at hc; exact Or.inl hc

theorem level_facts (e : Expr) : 2 ≤ level e ∧ level e ≤ 10 ∧ ∀ op, e.oper = some op → e ≠ .absent →
    (match e with | .unary .. => True | _ => op.cat ≤ level e) := by
  cases e with
  | absent => simp [level, Expr.oper]
  | lit v => simp [level, Expr.oper]
  | prop n => simp [level, Expr.oper]
  | unary op a => simp [level]
  | binary op a =>
    refine ⟨?_, ?_, ?_⟩
    · cases op <;> simp [level]
    · cases op <;> simp [level]
    · intro o h _
      simp only [Expr.oper, Option.some.injEq] at h
      subst h
      cases op <;> simp [level, Oper.cat]
  | call m a =>
    refine ⟨by simp [level], by simp [level], ?_⟩
    intro o h _
    simp only [Expr.oper, Option.some.injEq] at h
    subst h
    simp [level, Oper.cat]

/-- An operand, with brackets where they are written. -/
theorem operand_denotes {T : Tables} {t : Str} {e : Expr} {op : Oper} {k : Nat} (h : Denotes T (level e) t e)
    (h1 : weaker e op = true → NotPrefixed e) (h2 : weaker e op = false → k ≤ level e) (hk : k ≤ 10) :
    Denotes T k (bracketed (weaker e op) t) e := by
  cases hw : weaker e op with
  | false => exact Denotes.down h (h2 hw)
  | true =>
    have := Denotes.paren (Denotes.down h (level_facts e).1) (h1 hw) nil_blank nil_blank
    exact Denotes.down this hk

/-- The attribute `operator` of trees with a prefix operator. -/
theorem weaker_unary {op o : Oper} {a : List Expr} (ho : o = .negate ∨ o = .boolNot) :
    weaker (.unary o a) op = decide (8 < op.cat) := by
  rcases ho with rfl | rfl <;> rfl

theorem printable_unary {T : Tables} {fin : Bool → Nat → Int → Str} {o : Oper} {a : List Expr}
    (h : Printable T fin (.unary o a)) : o = .negate ∨ o = .boolNot := by
  cases h
  · exact Or.inl rfl
  · exact Or.inr rfl

/-- Where no brackets are written the operand is strong enough. -/
theorem strong_enough {T : Tables} {fin : Bool → Nat → Int → Str} {e : Expr} {op : Oper} (h : Printable T fin e)
    (hw : weaker e op = false) (hc : op.cat ≤ 10) (hu : NotPrefixed e ∨ op.cat ≤ 8) : op.cat ≤ level e := by
  cases e with
  | absent => cases h
  | lit v => exact hc
  | prop n => exact hc
  | call m a => exact hc
  | unary o a =>
    rcases hu with hu | hu
    · exact absurd hu (by simp [NotPrefixed])
    · exact hu
  | binary o a =>
    have h1 : ¬ o.cat < op.cat := by simpa [weaker, Expr.oper] using hw
    have h2 := (level_facts (.binary o a)).2.2 o rfl (by simp)
    have h2 : o.cat ≤ level (.binary o a) := h2
    omega

theorem weak_not_prefixed {T : Tables} {fin : Bool → Nat → Int → Str} {e : Expr} {op : Oper} (h : Printable T fin e)
    (hw : weaker e op = true) (hc : op.cat ≤ 8) : NotPrefixed e := by
  cases e with
  | unary o a =>
    rw [weaker_unary (printable_unary h)] at hw
    have := of_decide_eq_true hw
    omega
  | _ => trivial

theorem infix_text {k : Nat} {name : Str} {op : Oper} (h : Infix k name op) :
    binaryText op = .ok ([], ' ' :: (name ++ [' ']), []) ∧ op.cat = k ∧ level (.binary op []) = k ∧ k ≤ 7 := by
  cases h <;> decide +kernel

theorem level_binary (op : Oper) (a b : List Expr) : level (.binary op a) = level (.binary op b) := by cases op <;> rfl

theorem join_args {T : Tables} : ∀ {ts : List Str} {es : List Expr}, ts ≠ [] → ts.length = es.length →
    (∀ i (h : i < ts.length) (h' : i < es.length), Denotes T 2 ts[i] es[i]) → DenoteArgs T (Py.join ',' ts ++ [')']) es
  | [], _, h, _, _ => absurd rfl h
  | _ :: _, [], _, h, _ => by simp at h
  | [t], [e], _, _, hd => by
    have := DenoteArgs.last (hd 0 (by simp) (by simp)) nil_blank nil_blank
    simpa [Py.join] using this
  | [t], e :: f :: es, _, h, _ => by simp at h
  | t :: u :: ts, [e], _, h, _ => by simp at h
  | t :: u :: ts, e :: f :: es, _, h, hd => by
    have ih := join_args (ts := u :: ts) (es := f :: es) (by simp) (by simpa using h)
      (fun i h1 h2 => hd (i + 1) (Nat.succ_lt_succ h1) (Nat.succ_lt_succ h2))
    have := DenoteArgs.more (hd 0 (by simp) (by simp)) nil_blank nil_blank ih
    simpa [Py.join] using this

theorem printable_denotes {T : Tables} {fin : Bool → Nat → Int → Str} {e : Expr} (h : Printable T fin e) :
    ∃ t, e.text fin = .ok t ∧ Denotes T (level e) t e := by
  induction h with
  | lit hv => exact ⟨_, by rw [Expr.text], .lit (written_literal fin hv)⟩
  | prop hn => exact ⟨_, by rw [Expr.text], .prop hn⟩
  | @negate x hx hp hn ih =>
    obtain ⟨t, h1, h2⟩ := ih
    refine ⟨'-' :: bracketed (weaker x .negate) t, by rw [Expr.text]; simp only [h1, Except.map]; rfl, ?_⟩
    have hd := operand_denotes (op := .negate) (k := 9) h2 (fun _ => hp) (fun hw => by
      have := strong_enough hx hw (by decide) (Or.inl hp)
      cases x with
      | unary => exact absurd hp (by simp [NotPrefixed])
      | absent => cases hx
      | lit => simp [level]
      | prop => simp [level]
      | call => simp [level]
      | binary o a => 
        cases o <;> simp [level, Oper.cat] at this ⊢) (by omega)
    refine Denotes.negate (w := []) hd nil_blank ?_
    rw [List.nil_append]
    cases hw : weaker x .negate with
    | false => exact hn t h1
    | true =>
      intro hl
      rcases hl with ⟨c, u, hc, hd⟩ | hl | hl
      · injection hc with hc _
        subst hc
        rcases hd with hd | hd <;> exact absurd hd (by decide)
      · have hl : Py.lowerChar '(' :: Py.lower ((t ++ [')']).take 2) = _ := hl
        injection hl with hl _
        exact absurd hl (by decide)
      · have hl : Py.lowerChar '(' :: Py.lower ((t ++ [')']).take 2) = _ := hl
        injection hl with hl _
        exact absurd hl (by decide)
  | @not x hx hp ih =>
    obtain ⟨t, h1, h2⟩ := ih
    refine ⟨['n', 'o', 't'] ++ ([' '] ++ bracketed (weaker x .boolNot) t), by rw [Expr.text]; simp only [h1, Except.map]; rfl, ?_⟩
    have hd := operand_denotes (op := .boolNot) (k := 9) h2 (fun _ => hp) (fun hw => by
      have := strong_enough hx hw (by decide) (Or.inl hp)
      cases x with
      | unary => exact absurd hp (by simp [NotPrefixed])
      | absent => cases hx
      | lit => simp [level]
      | prop => simp [level]
      | call => simp [level]
      | binary o a => 
        cases o <;> simp [level, Oper.cat] at this ⊢) (by omega)
    exact Denotes.not (w := [' ']) hd space_blank (by simp)
  | @«infix» k name op x y hi hx hy hl ih1 ih2 =>
    obtain ⟨t, h1, h2⟩ := ih1
    obtain ⟨u, h3, h4⟩ := ih2
    obtain ⟨g1, g2, g3, g4⟩ := infix_text hi
    have hdx := operand_denotes (op := op) (k := k) h2 (fun hw => weak_not_prefixed hx hw (by omega)) (fun hw => by
      have := strong_enough hx hw (by omega) (Or.inr (by omega)); omega) (by omega)
    have hdy := operand_denotes (op := op) (k := k + 1) h4 (fun hw => weak_not_prefixed hy hw (by omega)) (fun hw => by
      have := strong_enough hy hw (by omega) (Or.inr (by omega)); omega) (by omega)
    refine ⟨bracketed (weaker x op) t ++ ([' '] ++ (name ++ ([' '] ++ bracketed (weaker y op) u))), ?_, ?_⟩
    · rw [Expr.text]; simp only [g1, h1, h3]; simp
    · rw [level_binary op [x, y] [], g3]
      exact Denotes.infix hi hdx hdy space_blank (by simp) space_blank (by simp)
  | @member x y hx hy px py hl ih1 ih2 =>
    obtain ⟨t, h1, h2⟩ := ih1
    obtain ⟨u, h3, h4⟩ := ih2
    have hdx := operand_denotes (op := .member) (k := 9) h2 (fun _ => px)
      (fun hw => strong_enough hx hw (by decide) (Or.inl px)) (by omega)
    have hdy := operand_denotes (op := .member) (k := 10) h4 (fun _ => py) (fun hw => by
      have := strong_enough hy hw (by decide) (Or.inl py)
      have h9 : 9 ≤ level y := this
      omega) (by omega)
    refine ⟨bracketed (weaker x .member) t ++ '/' :: bracketed (weaker y .member) u, ?_, ?_⟩
    · rw [Expr.text]; simp only [show binaryText .member = .ok ([], ['/'], []) from rfl, h1, h3]; simp
    · exact Denotes.member hdx hdy
  | @isof x s hx ih =>
    obtain ⟨t, h1, h2⟩ := ih
    have hdx := operand_denotes (op := .isof) (k := 2) h2 (fun hw => weak_not_prefixed hx hw (by decide))
      (fun _ => (level_facts x).1) (by omega)
    refine ⟨"isof".toList ++ '(' :: (bracketed (weaker x .isof) t ++ ',' :: ([] ++ (quote s ++ [')']))), ?_, ?_⟩
    · rw [Expr.text]
      have hq : Expr.text fin (.lit (.string s)) = .ok (quote s) := by
        rw [Expr.text]
        show Except.ok ('\'' :: (doubled s ++ ['\''])) = _
        rw [doubled_eq]; rfl
      simp only [show binaryText .isof = .ok (['i', 's', 'o', 'f', '('], [','], [')']) from rfl, h1, hq]
      simp [show weaker (.lit (.string s)) .isof = false from rfl, bracketed]
    · exact Denotes.isof (w := []) hdx nil_blank
  | @cast x s hx ih =>
    obtain ⟨t, h1, h2⟩ := ih
    have hdx := operand_denotes (op := .cast) (k := 2) h2 (fun hw => weak_not_prefixed hx hw (by decide))
      (fun _ => (level_facts x).1) (by omega)
    refine ⟨"cast".toList ++ '(' :: (bracketed (weaker x .cast) t ++ ',' :: ([] ++ (quote s ++ [')']))), ?_, ?_⟩
    · rw [Expr.text]
      have hq : Expr.text fin (.lit (.string s)) = .ok (quote s) := by
        rw [Expr.text]
        show Except.ok ('\'' :: (doubled s ++ ['\''])) = _
        rw [doubled_eq]; rfl
      simp only [show binaryText .cast = .ok (['c', 'a', 's', 't', '('], [','], [')']) from rfl, h1, hq]
      simp [show weaker (.lit (.string s)) .cast = false from rfl, bracketed]
    · exact Denotes.cast (w := []) hdx nil_blank
  | @call m args h0 _ ih =>
    have hts : ∀ l : List Expr, (∀ x ∈ l, ∃ t, Expr.text fin x = .ok t ∧ Denotes T (level x) t x) →
        ∃ ts, textList fin l = .ok ts ∧ ts.length = l.length ∧
          ∀ i (h : i < ts.length) (h' : i < l.length), Denotes T 2 ts[i] l[i] := by
      intro l
      induction l with
      | nil => intro _; exact ⟨[], by rw [textList], rfl, by intro i h; cases h⟩
      | cons x l ihl =>
        intro hl
        obtain ⟨t, h1, h2⟩ := hl x (by simp)
        obtain ⟨ts, g1, g2, g3⟩ := ihl (fun y hy => hl y (by simp [hy]))
        refine ⟨t :: ts, by rw [textList]; simp only [h1, g1]; rfl, by simp [g2], ?_⟩
        intro i h h'
        cases i with
        | zero => exact Denotes.down h2 (level_facts x).1
        | succ i => simpa using g3 i (by simpa using h) (by simpa using h')
    obtain ⟨ts, g1, g2, g3⟩ := hts args ih
    refine ⟨m.name ++ '(' :: (Py.join ',' ts ++ [')']), by rw [Expr.text]; simp only [g1]; rfl, ?_⟩
    refine Denotes.call (join_args ?_ g2 g3)
    rintro rfl
    cases args with
    | nil => exact h0 rfl
    | cons => simp at g2

end Verif.OData
