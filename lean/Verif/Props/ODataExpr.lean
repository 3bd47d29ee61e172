import Verif.Lemmas.ODataErr
import Verif.Lemmas.ODataPrint

/-!
# Properties of the literals and expressions of OData URIs (C139–C143)

`Literal` and `Denotes` of `Verif.Spec.OData` say what a text stands for, without a word about how it is read.
-/

namespace Verif.Props

open Verif Verif.OData Verif.Spec.OData

/-- Tables that know the letters of ASCII only and one date with a zone, for examples. -/
def plainTables : Tables where
  start := Py.isLetter
  more := fun c => Py.isLetter c || Py.isDigit c || c == '_'
  offset := fun t => t == "2013-06-09T12:30:00Z".toList
  start_more := by intro c h; simp [h]
  start_ascii := fun _ _ => rfl
  more_ascii := fun _ _ => rfl

/-! ## C139: literals -/

/-- **C139**: every literal is read as the value it stands for. -/
theorem literals_read {T : Tables} {t : Str} {v : Lit} (h : Literal T t v) : parseURILiteral T t = .ok v := by
  have := literal_read (rest := []) h (by intro c u hc; cases hc)
  rw [List.append_nil] at this
  rw [parseURILiteral, this]

/-- **C139**: a text stands for one value at most. -/
theorem literal_unique {T : Tables} {t : Str} {v w : Lit} (h : Literal T t v) (h' : Literal T t w) : v = w := by
  have h1 := literals_read h
  rw [literals_read h'] at h1
  injection h1 with h1
  exact h1.symm

/-- **C139**: the whole text must be the literal: nothing may follow. -/
theorem literals_whole {T : Tables} {t u : Str} {v : Lit} {c : Char} (h : Literal T t v)
    (hc : c = ' ' ∨ c = '\t' ∨ c = ')' ∨ c = ',' ∨ c = '/') : parseURILiteral T (t ++ c :: u) = .error .valueError := by
  have := literal_read (rest := c :: u) h (by intro d w hd; injection hd with hd _; subst hd; exact hc)
  rw [parseURILiteral, this]

/-- The hypothesis is met: a leap second on a leap day with a fraction, and a number with an exponent. -/
theorem literals_hypotheses :
    Literal plainTables "DateTime'2000-02-29T23:59:60.25'".toList
      (.dateTime { century := 20, year := 0, month := 2, day := 29 } 23 59 60 "25".toList) ∧
    Literal plainTables "-12.50e-3F".toList (.single (.fin true 1250 (-5))) ∧
    Literal plainTables "'it''s'".toList (.string "it's".toList) ∧
    Literal plainTables "-9223372036854775808L".toList (.int64 (-9223372036854775808)) := by
  refine ⟨?_, ?_, ?_, ?_⟩
  · exact Literal.dateTime (p := "DateTime".toList) (y := "2000".toList) (mo := "02".toList) (d := "29".toList)
      (clock := "23:59:60.25".toList) (f := "25".toList) (h := 23) (m := 59) (s := 60)
      (by decide +kernel) ⟨by decide, by decide⟩ (by decide) ⟨by decide, by decide⟩ (by decide) ⟨by decide, by decide⟩
      (by decide)
      (Clock.fraction (h := "23".toList) (m := "59".toList) (s := "60".toList) (f := "25".toList)
        ⟨by decide, by decide⟩ (by decide) ⟨by decide, by decide⟩ (by decide) ⟨by decide, by decide⟩ (by decide)
        ⟨by decide, by decide⟩ (by decide))
      (by decide) (by decide) (by decide) (by decide) (by decide) (Or.inl (by decide))
  · exact Literal.singleExp (neg := true) (eneg := true) (d := "12".toList) (f := "50".toList) (x := "3".toList) (m := 'e')
      (c := 'F') ⟨by decide, by decide⟩ ⟨by decide, by decide⟩ (by decide) ⟨by decide, by decide⟩ (by decide)
      (Or.inr rfl) (Or.inl rfl) (by unfold Below; decide +kernel)
  · exact Literal.string (s := "it's".toList)
  · exact Literal.int64 (neg := true) (d := "9223372036854775808".toList) (c := 'L') ⟨by decide, by decide⟩ (by decide)
      (Or.inl rfl) (by decide +kernel) (by decide +kernel)

/-! ## C140: literals that are written -/

/-- **C140**: the text written for a value is read as that value. -/
theorem literals_written_partial {T : Tables} (fin : Bool → Nat → Int → Str) {v : Lit} (h : Sound T v) :
    parseURILiteral T (litText fin v) = .ok v := literals_read (written_literal fin h)

/-- The hypothesis is met. -/
theorem written_hypotheses :
    Sound plainTables (.string "it's".toList) ∧ Sound plainTables (.int64 (-9223372036854775808)) ∧
    Sound plainTables (.dateTime { century := 20, year := 0, month := 2, day := 29 } 23 59 60 []) ∧
    Sound plainTables (.decimal true 12345 3) := by
  refine ⟨trivial, ⟨by decide, by decide⟩, ⟨2000, 2, 29, by decide, by decide, by decide, by decide, by decide, by decide,
    by decide, Or.inl ⟨by decide, by decide, by decide⟩, rfl⟩, ⟨by decide, by decide +kernel⟩⟩

/-- The full claim is false: the fraction of a second, which is read, is not written. -/
theorem literals_written_refuted : ∃ (T : Tables) (t : Str) (v : Lit), Literal T t v ∧
    ∀ fin, parseURILiteral T (litText fin v) = .ok (.time 12 30 15 []) ∧ v ≠ .time 12 30 15 [] := by
  refine ⟨plainTables, "time'12:30:15.5'".toList, .time 12 30 15 ['5'], ?_, ?_⟩
  · exact Literal.time (p := "time".toList) (clock := "12:30:15.5".toList) (by decide +kernel)
      (Clock.fraction (h := "12".toList) (m := "30".toList) (s := "15".toList) (f := "5".toList)
        ⟨by decide, by decide⟩ (by decide) ⟨by decide, by decide⟩ (by decide) ⟨by decide, by decide⟩ (by decide)
        ⟨by decide, by decide⟩ (by decide)) (Or.inl (by decide))
  · intro fin
    refine ⟨?_, by decide⟩
    have ht : litText fin (.time 12 30 15 ['5']) = "time'12:30:15'".toList := by
      show "time'".toList ++ (clockText 12 30 15 ++ ['\'']) = _
      decide +kernel
    rw [ht]
    decide +kernel

/-! ## C141: expressions -/

/-- **C141**: an expression is read as the tree that the binding of its operators gives it. -/
theorem expressions_read_partial {T : Tables} {t w w' : Str} {e : Expr} (h : Denotes T 2 t e) (hw : Blank w)
    (hw' : Blank w') : parseExpr T (w ++ (t ++ w')) = .ok e := by
  have := (denotes_reads h).blank hw hw' (s := []) (Or.inl rfl)
  rw [List.append_nil] at this
  rw [parseExpr_eq, this]

/-- **C141**: the whole text must be the expression: a bracket or a comma after it is refused. -/
theorem expressions_whole {T : Tables} {t u w w' : Str} {e : Expr} {c : Char} (h : Denotes T 2 t e) (hw : Blank w)
    (hw' : Blank w') (hc : c = ')' ∨ c = ',') : parseExpr T (w ++ (t ++ (w' ++ c :: u))) = .error .valueError := by
  have := (denotes_reads h).blank hw hw' (s := c :: u) (Or.inr ⟨u, by rcases hc with rfl | rfl <;> simp⟩)
  rw [parseExpr_eq, this]

/-- **C141**: a text is an expression in one way at most. -/
theorem expression_unique {T : Tables} {t : Str} {e f : Expr} (h : Denotes T 2 t e) (h' : Denotes T 2 t f) : e = f := by
  have h1 := expressions_read_partial h nil_blank nil_blank
  rw [expressions_read_partial h' nil_blank nil_blank] at h1
  injection h1 with h1
  exact h1.symm

theorem property_a : PropertyName plainTables ['a'] := by
  refine ⟨.one (by decide) (by intro d hd; cases hd), by decide, by decide, by decide, by decide, by decide⟩

theorem digit_literal {c : Char} (hc : Py.isDigit c = true) (h : Py.digitsVal 10 [c] ≤ 9) :
    Literal plainTables [c] (.int32 (Py.digitsVal 10 [c] : Nat)) := by
  refine Literal.int32 (neg := false) (d := [c]) ⟨by simp, by simpa using hc⟩ (by simp) ?_ ?_
  · show (-2147483648 : Int) ≤ ((Py.digitsVal 10 [c] : Nat) : Int); omega
  · show ((Py.digitsVal 10 [c] : Nat) : Int) ≤ 2147483647; omega

/-- The hypotheses are met: `1 sub a mul 2 sub 3 eq -a` is `((1-(a*2))-3) = (-a)`. -/
theorem expressions_hypotheses :
    Denotes plainTables 2 "1 sub a mul 2 sub 3 eq -a".toList
      (.binary .eq [.binary .sub [.binary .sub [.lit (.int32 1), .binary .mul [.prop ['a'], .lit (.int32 2)]], .lit (.int32 3)],
        .unary .negate [.prop ['a']]]) := by
  have one : Denotes plainTables 10 ['1'] (.lit (.int32 1)) := .lit (digit_literal (c := '1') (by decide) (by decide))
  have two : Denotes plainTables 10 ['2'] (.lit (.int32 2)) := .lit (digit_literal (c := '2') (by decide) (by decide))
  have three : Denotes plainTables 10 ['3'] (.lit (.int32 3)) := .lit (digit_literal (c := '3') (by decide) (by decide))
  have a : Denotes plainTables 10 ['a'] (.prop ['a']) := .prop property_a
  have neg : Denotes plainTables 8 ['-', 'a'] (.unary .negate [.prop ['a']]) := by
    refine Denotes.negate (w := []) (Denotes.down a (by decide)) nil_blank ?_
    rintro (⟨c, u, h, h'⟩ | h | h)
    · injection h with h _
      subst h
      exact absurd h' (by decide)
    · exact absurd h (by decide)
    · exact absurd h (by decide)
  have sp := space_blank
  have prod := Denotes.infix .mul (Denotes.down a (by decide)) (Denotes.down two (by decide)) sp (by simp) sp (by simp)
  have dif := Denotes.infix .sub (Denotes.down one (by decide)) prod sp (by simp) sp (by simp)
  have dif2 := Denotes.infix .sub dif (Denotes.down three (by decide)) sp (by simp) sp (by simp)
  have all := Denotes.infix .eq (Denotes.down dif2 (by decide)) (Denotes.down neg (by decide)) sp (by simp) sp (by simp)
  exact Denotes.down all (by decide)

/-- The full claim is false: expressions with `not` or a sign in brackets are refused; two prefix operators in a row, and one
after `/`, give a tree in which an operand is missing; a minus before a name that begins with `inf` or `nan` is refused; and
so is a property named like a literal. -/
theorem expressions_read_refuted :
    parseExpr plainTables "(not a) and b".toList = .error .valueError ∧
    parseExpr plainTables "(-a)".toList = .error .valueError ∧
    parseExpr plainTables "not not a".toList = .ok (.unary .boolNot [.unary .boolNot [.absent], .prop ['a']]) ∧
    parseExpr plainTables "- -a".toList = .ok (.unary .negate [.unary .negate [.absent], .prop ['a']]) ∧
    parseExpr plainTables "a/-b".toList = .ok (.unary .negate [.binary .member [.prop ['a'], .absent], .prop ['b']]) ∧
    parseExpr plainTables "-info".toList = .error .valueError ∧
    parseExpr plainTables "time eq 1".toList = .error .valueError := by
  refine ⟨by decide +kernel, by decide +kernel, by decide +kernel, by decide +kernel, by decide +kernel, by decide +kernel,
    by decide +kernel⟩

/-- Texts that are no expressions are accepted: a bracket is not closed, a comma is missing, `not` stands between two
operands, and an operator has its internal name. -/
theorem expressions_only_refuted :
    parseExpr plainTables "(a eq 1".toList = .ok (.binary .eq [.prop ['a'], .lit (.int32 1)]) ∧
    parseExpr plainTables "isof(a 'T'".toList = .ok (.binary .isof [.prop ['a'], .lit (.string ['T'])]) ∧
    parseExpr plainTables "a not b".toList = .ok (.binary .boolNot [.prop ['a'], .prop ['b']]) ∧
    parseExpr plainTables "a boolAnd b".toList = .ok (.binary .boolAnd [.prop ['a'], .prop ['b']]) := by
  refine ⟨by decide +kernel, by decide +kernel, by decide +kernel, by decide +kernel⟩

/-! ## C142: expressions that are written -/

/-- **C142**: the text written for a tree is read as that tree. -/
theorem expressions_written_partial {T : Tables} {fin : Bool → Nat → Int → Str} {e : Expr} (h : Printable T fin e) :
    ∃ t, e.text fin = .ok t ∧ parseExpr T t = .ok e := by
  obtain ⟨t, h1, h2⟩ := printable_denotes h
  refine ⟨t, h1, ?_⟩
  have := expressions_read_partial (Denotes.down h2 (level_facts e).1) nil_blank nil_blank
  simpa using this

theorem text_one (fin : Bool → Nat → Int → Str) : litText fin (.int32 1) = ['1'] := by
  show intText 1 = _; decide +kernel

theorem text_two (fin : Bool → Nat → Int → Str) : litText fin (.int32 2) = ['2'] := by
  show intText 2 = _; decide +kernel

theorem text_three (fin : Bool → Nat → Int → Str) : litText fin (.int32 3) = ['3'] := by
  show intText 3 = _; decide +kernel

/-- The hypothesis is met: `(1 or a) and not (a eq 2)`. -/
theorem printed_hypotheses : ∀ fin, Printable plainTables fin
    (.binary .boolAnd [.binary .boolOr [.lit (.int32 1), .prop ['a']],
      .unary .boolNot [.binary .eq [.prop ['a'], .lit (.int32 2)]]]) ∧
    Expr.text fin (.binary .boolAnd [.binary .boolOr [.lit (.int32 1), .prop ['a']],
      .unary .boolNot [.binary .eq [.prop ['a'], .lit (.int32 2)]]]) = .ok "(1 or a) and not (a eq 2)".toList := by
  intro fin
  constructor
  · refine .infix .and (.infix .or (.lit ⟨by decide, by decide⟩) (.prop property_a) (by decide)) (.not ?_ trivial) (by decide)
    exact .infix .eq (.prop property_a) (.lit ⟨by decide, by decide⟩) (by decide)
  · simp [Expr.text, text_one, text_two, binaryText, Oper.special, Oper.name, weaker, Expr.oper, Oper.cat, bracketed, Except.map]

/-- The full claim is false: the text of a difference whose right operand is a difference is that of another tree, that of a
negated literal is that of the negative literal, and a path from a negation, or a cast of the context, cannot be read or
written. -/
theorem expressions_written_refuted : ∀ fin,
    ((Expr.binary .sub [.lit (.int32 1), .binary .sub [.lit (.int32 2), .lit (.int32 3)]]).text fin = .ok "1 sub 2 sub 3".toList ∧
      parseExpr plainTables "1 sub 2 sub 3".toList =
        .ok (.binary .sub [.binary .sub [.lit (.int32 1), .lit (.int32 2)], .lit (.int32 3)])) ∧
    ((Expr.unary .negate [.lit (.int32 1)]).text fin = .ok "-1".toList ∧
      parseExpr plainTables "-1".toList = .ok (.lit (.int32 (-1)))) ∧
    ((Expr.binary .member [.unary .negate [.prop ['a']], .prop ['b']]).text fin = .ok "(-a)/b".toList ∧
      parseExpr plainTables "(-a)/b".toList = .error .valueError) ∧
    (parseExpr plainTables "cast('T')".toList = .ok (.binary .cast [.lit (.string ['T'])]) ∧
      (Expr.binary .cast [.lit (.string ['T'])]).text fin = .error .indexError) := by
  intro fin
  refine ⟨⟨?_, by decide +kernel⟩, ⟨?_, by decide +kernel⟩, ⟨?_, by decide +kernel⟩, by decide +kernel, ?_⟩ <;>
    simp [Expr.text, text_one, text_two, text_three, binaryText, Oper.special, Oper.name, weaker, Expr.oper, Oper.cat, bracketed,
      Except.map]

/-! ## C143: errors -/

/-- **C143**: reading a text as an expression ends, with a tree, `ValueError` or `TypeError`. -/
theorem expression_errors_partial (T : Tables) (s : Str) : (∃ e, parseExpr T s = .ok e) ∨
    parseExpr T s = .error .valueError ∨ parseExpr T s = .error .typeError := by
  have h := plain_parse T s
  cases hp : parseExpr T s with
  | ok e => exact Or.inl ⟨e, rfl⟩
  | error e =>
    rcases h e hp with rfl | rfl
    · exact Or.inr (Or.inl rfl)
    · exact Or.inr (Or.inr rfl)

/-- That `ValueError` is the only exception is false: a point without digits raises `TypeError`. -/
theorem expression_errors_refuted :
    parseExpr plainTables "time'12:30:15.'".toList = .error .typeError := by decide +kernel

/-- All outcomes occur. -/
theorem errors_witness : (∃ e, parseExpr plainTables "a eq 1".toList = .ok e) ∧
    parseExpr plainTables "a eq".toList = .error .valueError := by
  exact ⟨⟨.binary .eq [.prop ['a'], .lit (.int32 1)], by decide +kernel⟩, by decide +kernel⟩

end Verif.Props
