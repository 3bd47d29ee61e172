import Verif.Props.V1Score
import Verif.Props.Names

/-!
# Migrated conditions
-/

namespace Verif.Props

open Verif Verif.Qti Verif.Spec Verif.V1

set_option linter.unusedVariables false

/-! ## Operands -/

theorem plain_valid {s : Str} (h : PlainName s) : Names.isValidNCName s = true :=
  (ncname_test_partial s).2 (fun c hc => (h.2 c hc).2.2) h.1

theorem plain_kept {s : Str} (h : PlainName s) (p : Str) : (Names.readIdentifier p s).1 = s := by
  rw [legal_identifier_kept p s h.1 (fun hd => (h.2 _ hd).1 rfl) (fun c hc => (h.2 c hc).2.2)
    (strip_id s (fun c hc => (h.2 c (List.mem_of_mem_head? hc)).2.1)
      (fun c hc => (h.2 c (List.mem_of_mem_getLast? hc)).2.1))]

theorem words_run : ∀ (s w t : Str), (∀ c ∈ s, Names.isSpace c = false) →
    words w (s ++ t) = words (s.reverse ++ w) t
  | [], w, t, _ => rfl
  | c :: s, w, t, h => by
    rw [List.cons_append, words.eq_def]
    simp only [h c (List.mem_cons_self ..), Bool.false_eq_true, if_false]
    rw [words_run s (c :: w) t (fun d hd => h d (List.mem_cons_of_mem _ hd))]
    simp

theorem words_two (a b : Str) (ha : a ≠ []) (hb : b ≠ []) (hsa : ∀ c ∈ a, Names.isSpace c = false)
    (hsb : ∀ c ∈ b, Names.isSpace c = false) : words [] (a ++ ' ' :: b) = [a, b] := by
  rw [words_run a [] _ hsa, List.append_nil]
  have hr : a.reverse ≠ [] := by simpa using ha
  have hsp : Names.isSpace ' ' = true := by decide
  rw [words.eq_def]
  simp only [hsp, if_true, if_neg hr, List.reverse_reverse]
  have := words_run b [] [] hsb
  rw [List.append_nil] at this
  rw [this]
  have hrb : b.reverse ≠ [] := by simpa using hb
  cases hb' : b.reverse with
  | nil => exact absurd hb' hrb
  | cons c t =>
    have e : words (c :: t) [] = [(c :: t).reverse] := by rw [words.eq_def]
    rw [List.append_nil, e, ← hb', List.reverse_reverse]

theorem comma_not_name : Names.isNameChar ',' = false ∧ Names.isNameStartChar ',' = false := by decide +kernel

theorem plain_no_comma {s : Str} (h : PlainName s) : ',' ∉ s := by
  have hv := plain_valid h
  intro hm
  cases s with
  | nil => cases hm
  | cons c t =>
    simp only [Names.isValidNCName, Bool.and_eq_true, List.all_eq_true] at hv
    rcases List.mem_cons.mp hm with h1 | h1
    · rw [← h1, comma_not_name.2] at hv
      exact absurd hv.1.1 (by simp)
    · have := (hv.2 _ h1).1
      rw [comma_not_name.1] at this
      cases this

theorem commas_replaced {s : Str} (h : ',' ∉ s) : s.map (fun c => if c = ',' then ' ' else c) = s := by
  rw [List.map_congr_left (g := id), List.map_id]
  intro c hc
  rw [if_neg (fun e : c = ',' => h (e ▸ hc))]
  rfl

theorem pair_text {a b : Str} (ha : PlainName a) (hb : PlainName b) :
    fromText .pair ((a ++ ',' :: b).map fun c => if c = ',' then ' ' else c) = .ok (some (sortPair a b)) := by
  rw [List.map_append, List.map_cons, commas_replaced (plain_no_comma ha), commas_replaced (plain_no_comma hb)]
  have na : a ≠ [] := by rintro rfl; cases plain_valid ha
  have nb : b ≠ [] := by rintro rfl; cases plain_valid hb
  simp only [fromText, if_true]
  rw [words_two a b na nb (fun c hc => (ha.2 c hc).2.1) (fun c hc => (hb.2 c hc).2.1)]
  simp only [plain_valid ha, plain_valid hb, and_self, if_true]

/-- The operand of a test is read as the value it stands for. -/
theorem literal_eval {bt : BaseType} {s : Str} {y : Atom} (h : Denotes bt s y) (st : State) :
    eval st (singleValue bt s) = .ok (.single (some bt) (some y)) := by
  cases h with
  | identifier h =>
    simp only [singleValue, plain_kept h, eval, evalLeaf, newSingle, fromText, plain_valid h, if_true, bind,
      Except.bind]
  | string h => simp only [singleValue, eval, evalLeaf, newSingle, fromText, if_neg h, bind, Except.bind]
  | integer h => exact integer_literal h
  | float h => exact float_literal h
  | @pair a b ha hb hn =>
    simp only [singleValue, eval, evalLeaf, newSingle, pair_text ha hb, bind, Except.bind, sortPair, if_neg hn]
  | @pairSwapped a b ha hb hn =>
    simp only [singleValue, eval, evalLeaf, newSingle, pair_text ha hb, bind, Except.bind, sortPair, if_pos hn]

theorem denotes_unique {bt : BaseType} {s : Str} {y z : Atom} (h : Denotes bt s y) (h' : Denotes bt s z) : y = z := by
  have e := (literal_eval h ⟨[], []⟩).symm.trans (literal_eval h' ⟨[], []⟩)
  have := Except.ok.inj e
  cases this
  rfl

/-! ## Answers -/

theorem isAnswer_typed {st : State} (hst : GoodState st) {id : Str} {v : Value} (h : st.get id = .ok v) :
    WellTyped v := eval_typed st hst (.leaf (.variable id)) v (variable_eval h)

/-- A test of one value looks at a single value of the base type, NULL if there is none. -/
theorem one_eval {env : Env} {st : State} {R : Answers} (hh : HoldsAnswers env st R) {r : Str} {a : Answer}
    (hr : R r = some a) {i : Option Int} (hp : PicksOne a i) (hbt : a.bt ≠ .file) :
    ∃ e o, variableExpr env r i = .ok (e, .single, a.bt) ∧ eval st e = .ok (.single (some a.bt) o) ∧
      o.toList = selected a i := by
  obtain ⟨id, v, henv, hget, hv⟩ := hh.2 r a hr
  have hvar := variable_eval hget
  have plain : a.card = .single → variableExpr env r i = .ok (.leaf (.variable id), .single, a.bt) := by
    intro hc
    unfold variableExpr
    rw [henv]
    cases i with
    | none => simp only [hc]
    | some n => by_cases hn : n = 0 <;> simp only [hc, hn, if_true, if_false]
  have sel : a.card = .single → selected a i = a.values := by
    intro hc
    cases i with
    | none => rfl
    | some n => simp [selected, hc]
  rcases hp with hc | ⟨hc, n, rfl, hn⟩
  · refine ⟨_, ?_, plain hc, ?_⟩
    · exact (match v with | .single _ o => o | _ => none)
    · cases hv with
      | none bt => exact ⟨hvar, (sel hc).symm⟩
      | single bt x => exact ⟨hvar, (sel hc).symm⟩
      | ordered => cases hc
      | multiple => cases hc
  · cases hv with
    | none => cases hc
    | single => cases hc
    | multiple => cases hc
    | ordered bt as =>
      have hidx := index_nth st hh.1 _ bt as n hvar hn hbt
      refine ⟨_, _, ?_, hidx, ?_⟩
      · unfold variableExpr
        rw [henv]
        have : n ≠ 0 := by omega
        simp only [if_neg this]
      · have : n ≠ 0 := by omega
        simp [selected, this]

/-- A test of all the values looks at the container. -/
theorem all_eval {env : Env} {st : State} {R : Answers} (hh : HoldsAnswers env st R) {r : Str} {a : Answer}
    (hr : R r = some a) {i : Option Int} (hp : PicksAll a i) :
    ∃ e v, variableExpr env r i = .ok (e, a.card, a.bt) ∧ eval st e = .ok v ∧ IsContainer v a.card a.bt a.values ∧
      selected a i = a.values := by
  obtain ⟨id, v, henv, hget, hv⟩ := hh.2 r a hr
  refine ⟨.leaf (.variable id), v, ?_, variable_eval hget, ?_, ?_⟩
  · unfold variableExpr
    rw [henv]
    rcases hp.2 with rfl | rfl <;> simp
  · cases hv with
    | none => rcases hp.1 with h | h <;> cases h
    | single => rcases hp.1 with h | h <;> cases h
    | ordered bt as => exact .ordered bt as
    | multiple bt as => exact .multiple bt as
  · rcases hp.2 with rfl | rfl <;> simp [selected]

/-! ## Tests -/

/-- An expression evaluates to a truth value, or to NULL. -/
def TruthIs (st : State) (e : Expr) (t : Option Bool) : Prop := ∃ v, eval st e = .ok v ∧ IsTruth v t

theorem truthIs_bool {st : State} {e : Expr} {t : Option Bool} (h : eval st e = .ok (boolV t)) : TruthIs st e t :=
  ⟨_, h, boolV_isTruth t⟩

/-- The truth value `t` is right about a test of some values: NULL if there are none, and otherwise whether one of
them passes. -/
def RightAbout (P : Atom → Prop) (xs : List Atom) (t : Option Bool) : Prop :=
  (xs = [] → t = none) ∧ (xs ≠ [] → ∃ b, t = some b ∧ (b = true ↔ ∃ x ∈ xs, P x))

theorem right_option {P : Atom → Prop} {o : Option Atom} {t : Option Bool} (h1 : o = none → t = none)
    (h2 : ∀ x, o = some x → ∃ b, t = some b ∧ (b = true ↔ P x)) : RightAbout P o.toList t := by
  cases o with
  | none => exact ⟨fun _ => h1 rfl, fun h => absurd rfl h⟩
  | some x =>
    refine ⟨fun h => (by cases h), fun _ => ?_⟩
    obtain ⟨b, hb, hi⟩ := h2 x rfl
    exact ⟨b, hb, by simp [hi]⟩

theorem match_right {st : State} {e f : Expr} {bt : BaseType} {o : Option Atom} {y : Atom}
    (he : eval st e = .ok (.single (some bt) o)) (hf : eval st f = .ok (.single (some bt) (some y)))
    (hd : bt ≠ .duration) : ∃ t, TruthIs st (.node .match [e, f]) t ∧ RightAbout (fun x => x = y) o.toList t := by
  cases o with
  | none =>
    refine ⟨none, truthIs_bool ?_, right_option (fun _ => rfl) (by simp)⟩
    rw [eval_two (by simp) he hf]
    simp [applyOp, two, bind, Except.bind, valueEq, checkCardinalities, checkCardinalitiesFrom, Value.card, Value.bt,
      checkBaseTypes, checkBaseTypesFrom, hd, Value.isNull, pure, Except.pure]
  | some x =>
    obtain ⟨b, hb, hi⟩ := match_tests_equality st e f _ _ bt he hf rfl (by simp [Value.card]) rfl rfl hd rfl rfl
    refine ⟨some b, truthIs_bool hb, right_option (by simp) ?_⟩
    intro z hz
    cases hz
    exact ⟨b, rfl, by rw [hi]; simp [SameValue]⟩

theorem member_right {st : State} {e f : Expr} {bt : BaseType} {card : Card} {v : Value} {as : List Atom} {y : Atom}
    (he : eval st e = .ok (.single (some bt) (some y))) (hf : eval st f = .ok v) (hv : IsContainer v card bt as)
    (hd : bt ≠ .duration) : ∃ t, TruthIs st (.node .member [e, f]) t ∧ RightAbout (fun x => x = y) as t := by
  obtain ⟨t, ht, h1, h2⟩ := member_tests_membership st e f _ v card bt (some y) as he hf rfl hv hd
  refine ⟨t, truthIs_bool ht, fun h => h2 (Or.inr h), fun h => ?_⟩
  obtain ⟨h3, h4⟩ := h1 y rfl h
  by_cases hy : y ∈ as
  · exact ⟨true, h3.mpr hy, by simp [hy]⟩
  · refine ⟨false, h4.mpr hy, ?_⟩
    simp only [Bool.false_eq_true, false_iff]
    rintro ⟨x, hx, rfl⟩
    exact hy hx

theorem string_right {st : State} {e f : Expr} {o : Option Atom} {y : Atom} (flag : Bool)
    (he : eval st e = .ok (.single (some .string) o)) (hf : eval st f = .ok (.single (some .string) (some y)))
    (ho : ∀ x, o = some x → ∃ s, x = .str s) (hy : ∃ s, y = .str s) :
    ∃ t, TruthIs st (.node (.stringMatch flag false) [e, f]) t ∧
      RightAbout (fun x => Passes (.varequal flag) .string x y) o.toList t := by
  obtain ⟨u, rfl⟩ := hy
  cases o with
  | none =>
    refine ⟨none, truthIs_bool ?_, right_option (fun _ => rfl) (by simp)⟩
    rw [eval_two (by simp) he hf]
    rfl
  | some x =>
    obtain ⟨s, rfl⟩ := ho x rfl
    cases flag with
    | true =>
      refine ⟨some (decide (s = u)), truthIs_bool ?_, right_option (by simp) ?_⟩
      · rw [eval_two (by simp) he hf]
        rfl
      · intro z hz
        cases hz
        exact ⟨_, rfl, by simp [Passes]⟩
    | false =>
      refine ⟨some (decide (Py.lower s = Py.lower u)), truthIs_bool ?_, right_option (by simp) ?_⟩
      · rw [eval_two (by simp) he hf]
        rfl
      · intro z hz
        cases hz
        exact ⟨_, rfl, by simp [Passes, textOf]⟩

/-- An integer or a float, according to the base type. -/
def NumberOfType (bt : BaseType) (x : Atom) : Prop := (bt = .integer ∧ ∃ i, x = .int i) ∨ (bt = .float ∧ ∃ q, x = .num q)

theorem numberOfType_isNumber {bt : BaseType} {x : Atom} (h : NumberOfType bt x) :
    ∃ q, numberOf x = some q ∧ IsNumber (.single (some bt) (some x)) q := by
  rcases h with ⟨rfl, i, rfl⟩ | ⟨rfl, q, rfl⟩
  · exact ⟨i, rfl, .integer i⟩
  · exact ⟨q, rfl, .float q⟩

theorem numbers_iff {P : Rat → Rat → Prop} {x y : Atom} {p q : Rat} (hx : numberOf x = some p) (hy : numberOf y = some q) :
    Numbers P x y ↔ P p q := by
  constructor
  · rintro ⟨p', q', h1, h2, h⟩
    rw [hx] at h1
    rw [hy] at h2
    cases h1
    cases h2
    exact h
  · exact fun h => ⟨p, q, hx, hy, h⟩

/-- The four numeric tests. -/
theorem order_right {st : State} {e f : Expr} {bt : BaseType} {o : Option Atom} {y : Atom}
    (hb : bt = .integer ∨ bt = .float)
    (he : eval st e = .ok (.single (some bt) o)) (hf : eval st f = .ok (.single (some bt) (some y)))
    (ho : ∀ x, o = some x → NumberOfType bt x) (hy : NumberOfType bt y) :
    (∃ t, TruthIs st (.node .lt [e, f]) t ∧ RightAbout (fun x => Numbers (fun p q => p < q) x y) o.toList t) ∧
    (∃ t, TruthIs st (.node .lte [e, f]) t ∧ RightAbout (fun x => Numbers (fun p q => p ≤ q) x y) o.toList t) ∧
    (∃ t, TruthIs st (.node .gt [e, f]) t ∧ RightAbout (fun x => Numbers (fun p q => p > q) x y) o.toList t) ∧
    (∃ t, TruthIs st (.node .gte [e, f]) t ∧ RightAbout (fun x => Numbers (fun p q => p ≥ q) x y) o.toList t) := by
  obtain ⟨q, hyq, hyn⟩ := numberOfType_isNumber hy
  cases o with
  | none =>
    refine ⟨⟨none, truthIs_bool ?_, right_option (fun _ => rfl) (by simp)⟩,
      ⟨none, truthIs_bool ?_, right_option (fun _ => rfl) (by simp)⟩,
      ⟨none, truthIs_bool ?_, right_option (fun _ => rfl) (by simp)⟩,
      ⟨none, truthIs_bool ?_, right_option (fun _ => rfl) (by simp)⟩⟩ <;>
    · rw [eval_two (by simp) he hf]
      rcases hb with rfl | rfl <;> rfl
  | some x =>
    obtain ⟨p, hxp, hxn⟩ := numberOfType_isNumber (ho x rfl)
    obtain ⟨⟨b1, h1, i1⟩, ⟨b2, h2, i2⟩, ⟨b3, h3, i3⟩, ⟨b4, h4, i4⟩⟩ := comparisons st e f p q ⟨_, he, hxn⟩ ⟨_, hf, hyn⟩
    have fin : ∀ (b : Bool) (P : Rat → Rat → Prop), (b = true ↔ P p q) →
        RightAbout (fun x => Numbers P x y) (some x).toList (some b) := by
      intro b P hb
      refine right_option (by simp) ?_
      intro z hz
      cases hz
      exact ⟨b, rfl, by rw [hb, numbers_iff hxp hyq]⟩
    exact ⟨⟨_, truthIs_bool h1, fin b1 _ i1⟩, ⟨_, truthIs_bool h2, fin b2 _ i2⟩, ⟨_, truthIs_bool h3, fin b3 _ i3⟩,
      ⟨_, truthIs_bool h4, fin b4 _ i4⟩⟩

theorem float_equal_right {st : State} {e f : Expr} {o : Option Atom} {y : Atom}
    (he : eval st e = .ok (.single (some .float) o)) (hf : eval st f = .ok (.single (some .float) (some y)))
    (ho : ∀ x, o = some x → ∃ q, x = .num q) (hy : ∃ q, y = .num q) :
    ∃ t, TruthIs st (.node (.equal .exact [] true true) [e, f]) t ∧ RightAbout (fun x => x = y) o.toList t := by
  obtain ⟨q, rfl⟩ := hy
  cases o with
  | none =>
    refine ⟨none, truthIs_bool ?_, right_option (fun _ => rfl) (by simp)⟩
    rw [eval_two (by simp) he hf]
    rfl
  | some x =>
    obtain ⟨p, rfl⟩ := ho x rfl
    refine ⟨some (decide (p = q)), truthIs_bool ?_, right_option (by simp) ?_⟩
    · rw [eval_two (by simp) he hf]
      rfl
    · intro z hz
      cases hz
      exact ⟨_, rfl, by simp⟩

theorem denotes_types {bt : BaseType} {s : Str} {y : Atom} (h : Denotes bt s y) :
    bt = .identifier ∨ bt = .string ∧ (∃ s, y = .str s) ∨ bt = .integer ∧ (∃ i, y = .int i) ∨
      bt = .float ∧ (∃ q, y = .num q) ∨ bt = .pair := by
  cases h <;> simp

/-- The member of a well typed single value is of its base type. -/
theorem typed_member {st : State} (hst : GoodState st) {e : Expr} {bt : BaseType} {o : Option Atom}
    (he : eval st e = .ok (.single (some bt) o)) : ∀ x, o = some x → HasType bt x := by
  intro x hx
  subst hx
  cases eval_typed st hst e _ he with
  | single h => exact h

/-- **Tests.** The migrated test is NULL if the candidate gave no value to look at, and otherwise tells whether one
of the values passes. -/
theorem test_right {env : Env} {st : State} {R : Answers} (hh : HoldsAnswers env st R) {t : Test} {r : Str} {a : Answer}
    {i : Option Int} {text : Str} {y : Atom} (hr : R r = some a) (hy : Denotes a.bt text y) (ht : Translatable t a i) :
    ∃ e v, testExpr env t r i text = .ok e ∧ TruthIs st e v ∧
      RightAbout (fun x => Passes t a.bt x y) (selected a i) v := by
  have hlit := literal_eval hy st
  have hty := denotes_types hy
  have hfile : a.bt ≠ .file := by rcases hty with h | ⟨h, _⟩ | ⟨h, _⟩ | ⟨h, _⟩ | h <;> simp [h]
  have hdur : a.bt ≠ .duration := by rcases hty with h | ⟨h, _⟩ | ⟨h, _⟩ | ⟨h, _⟩ | h <;> simp [h]
  have order : PicksOne a i ∧ (a.bt = .integer ∨ a.bt = .float) → ∃ (e : Expr) (o : Option Atom),
      variableExpr env r i = .ok (e, .single, a.bt) ∧ o.toList = selected a i ∧
      (∃ t, TruthIs st (.node .lt [e, singleValue a.bt text]) t ∧
        RightAbout (fun x => Numbers (fun p q => p < q) x y) o.toList t) ∧
      (∃ t, TruthIs st (.node .lte [e, singleValue a.bt text]) t ∧
        RightAbout (fun x => Numbers (fun p q => p ≤ q) x y) o.toList t) ∧
      (∃ t, TruthIs st (.node .gt [e, singleValue a.bt text]) t ∧
        RightAbout (fun x => Numbers (fun p q => p > q) x y) o.toList t) ∧
      (∃ t, TruthIs st (.node .gte [e, singleValue a.bt text]) t ∧
        RightAbout (fun x => Numbers (fun p q => p ≥ q) x y) o.toList t) := by
    rintro ⟨hp, hb⟩
    obtain ⟨e, o, h1, h2, h3⟩ := one_eval hh hr hp hfile
    refine ⟨e, o, h1, h3, order_right hb h2 hlit ?_ ?_⟩
    · intro x hx
      have hT := typed_member hh.1 h2 x hx
      rcases hb with hb | hb
      · rw [hb] at hT
        cases hT
        exact Or.inl ⟨hb, _, rfl⟩
      · rw [hb] at hT
        cases hT
        exact Or.inr ⟨hb, _, rfl⟩
    · rcases hty with h | ⟨h, _⟩ | h | h | h
      · rcases hb with hb | hb <;> rw [hb] at h <;> cases h
      · rcases hb with hb | hb <;> rw [hb] at h <;> cases h
      · exact Or.inl h
      · exact Or.inr h
      · rcases hb with hb | hb <;> rw [hb] at h <;> cases h
  cases t with
  | varsubstring => exact ht.elim
  | varinside => exact ht.elim
  | varlt =>
    obtain ⟨e, o, h1, h3, ⟨t, ht1, ht2⟩, _⟩ := order ht
    rw [h3] at ht2
    exact ⟨_, t, by simp only [testExpr, h1, bind, Except.bind, orderExpr, if_true, if_pos ht.2], ht1, ht2⟩
  | varlte =>
    obtain ⟨e, o, h1, h3, _, ⟨t, ht1, ht2⟩, _⟩ := order ht
    rw [h3] at ht2
    exact ⟨_, t, by simp only [testExpr, h1, bind, Except.bind, orderExpr, if_true, if_pos ht.2], ht1, ht2⟩
  | vargt =>
    obtain ⟨e, o, h1, h3, _, _, ⟨t, ht1, ht2⟩, _⟩ := order ht
    rw [h3] at ht2
    exact ⟨_, t, by simp only [testExpr, h1, bind, Except.bind, orderExpr, if_true, if_pos ht.2], ht1, ht2⟩
  | vargte =>
    obtain ⟨e, o, h1, h3, _, _, _, ⟨t, ht1, ht2⟩⟩ := order ht
    rw [h3] at ht2
    exact ⟨_, t, by simp only [testExpr, h1, bind, Except.bind, orderExpr, if_true, if_pos ht.2], ht1, ht2⟩
  | varsubset =>
    have hno : variableExpr env r none = variableExpr env r i := by
      rcases ht with rfl | rfl
      · rfl
      · unfold variableExpr
        cases env r with
        | none => rfl
        | some p => simp
    have hcard : a.card = .single ∨ a.card = .ordered ∨ a.card = .multiple := by
      obtain ⟨id, v, _, _, hv⟩ := hh.2 r a hr
      cases hv <;> simp
    by_cases hc : a.card = .single
    · obtain ⟨e, o, h1, h2, h3⟩ := one_eval hh hr (i := i) (Or.inl hc) hfile
      obtain ⟨t, ht1, ht2⟩ := match_right h2 hlit hdur
      rw [h3] at ht2
      exact ⟨_, t, by simp only [testExpr, hno, h1, bind, Except.bind, if_true], ht1, ht2⟩
    · obtain ⟨e, v, h1, h2, h3, h4⟩ := all_eval hh hr (i := i) ⟨hcard.resolve_left hc, ht⟩
      obtain ⟨t, ht1, ht2⟩ := member_right hlit h2 h3 hdur
      rw [h4]
      exact ⟨_, t, by simp only [testExpr, hno, h1, bind, Except.bind, if_neg hc], ht1, ht2⟩
  | varequal flag =>
    rcases ht with hp | ⟨hp, hint, hflag⟩
    · obtain ⟨e, o, h1, h2, h3⟩ := one_eval hh hr hp hfile
      rcases hty with hb | ⟨hb, hys⟩ | ⟨hb, hys⟩ | ⟨hb, hys⟩ | hb
      · obtain ⟨t, ht1, ht2⟩ := match_right h2 hlit hdur
        rw [h3] at ht2
        refine ⟨.node .match [e, singleValue a.bt text], t, by simp [testExpr, h1, bind, Except.bind, hb], ht1, ?_⟩
        cases flag <;> simpa [Passes, hb] using ht2
      · have ho : ∀ x, o = some x → ∃ s, x = .str s := by
          intro x hx
          have hT := typed_member hh.1 h2 x hx
          rw [hb] at hT
          cases hT
          exact ⟨_, rfl⟩
        rw [hb] at h2 hlit h1
        obtain ⟨t, ht1, ht2⟩ := string_right flag h2 hlit ho hys
        rw [h3] at ht2
        refine ⟨_, t, ?_, ht1, by rw [hb]; exact ht2⟩
        simp [testExpr, h1, bind, Except.bind]
      · obtain ⟨t, ht1, ht2⟩ := match_right h2 hlit hdur
        rw [h3] at ht2
        refine ⟨.node .match [e, singleValue a.bt text], t, by simp [testExpr, h1, bind, Except.bind, hb], ht1, ?_⟩
        cases flag <;> simpa [Passes, hb] using ht2
      · have ho : ∀ x, o = some x → ∃ q, x = .num q := by
          intro x hx
          have hT := typed_member hh.1 h2 x hx
          rw [hb] at hT
          cases hT
          exact ⟨_, rfl⟩
        rw [hb] at h2 hlit h1
        obtain ⟨t, ht1, ht2⟩ := float_equal_right h2 hlit ho hys
        rw [h3] at ht2
        refine ⟨_, t, by simp [testExpr, h1, bind, Except.bind], ht1, ?_⟩
        cases flag <;> simpa [Passes, hb] using ht2
      · obtain ⟨t, ht1, ht2⟩ := match_right h2 hlit hdur
        rw [h3] at ht2
        refine ⟨.node .match [e, singleValue a.bt text], t, by simp [testExpr, h1, bind, Except.bind, hb], ht1, ?_⟩
        cases flag <;> simpa [Passes, hb] using ht2
    · obtain ⟨e, v, h1, h2, h3, h4⟩ := all_eval hh hr hp
      obtain ⟨t, ht1, ht2⟩ := member_right hlit h2 h3 hdur
      have hc : a.card ≠ .single := by rcases hp.1 with h | h <;> simp [h]
      have hb : a.bt = .identifier ∨ a.bt = .pair ∨ a.bt = .string ∨ a.bt = .float := by
        rcases hty with h | ⟨h, _⟩ | ⟨h, _⟩ | ⟨h, _⟩ | h
        · exact Or.inl h
        · exact Or.inr (Or.inr (Or.inl h))
        · exact absurd h hint
        · exact Or.inr (Or.inr (Or.inr h))
        · exact Or.inr (Or.inl h)
      rw [h4]
      refine ⟨_, t, by simp only [testExpr, h1, bind, Except.bind, if_neg hc, if_pos hb], ht1, ?_⟩
      cases flag with
      | true => exact ht2
      | false =>
        have : a.bt ≠ .string := fun h => by cases hflag h
        simpa [Passes, this] using ht2

/-! ## Conditions -/

theorem and_eval {st : State} {es : List Expr} {ts : List (Option Bool)} (h : Truths st es ts) :
    eval st (.node .and es) = .ok (boolV (andLoop (some true) ts)) := by
  obtain ⟨vs, hvs, hts⟩ := truths_evalAll h
  simp only [eval, hvs, bind, Except.bind, applyOp, truths_allSingle hts, truths_bool hts]
  rfl

theorem or_eval {st : State} {es : List Expr} {ts : List (Option Bool)} (h : Truths st es ts) :
    eval st (.node .or es) = .ok (boolV (orLoop (some false) ts)) := by
  obtain ⟨vs, hvs, hts⟩ := truths_evalAll h
  simp only [eval, hvs, bind, Except.bind, applyOp, truths_allSingle hts, truths_bool hts]
  rfl

/-- What is proved of one condition with truth value `t`. -/
structure Agrees (R : Answers) (c : Cond) (t : Option Bool) : Prop where
  right : ∀ b, t = some b → (Sat R c ↔ b = true)
  known : Answered R c → t ≠ none
  complete : NegatesAnswered R c → Sat R c → t = some true

/-- What is proved of several conditions with truth values `ts`. -/
structure AgreeAll (R : Answers) (cs : List Cond) (ts : List (Option Bool)) : Prop where
  notAll : some false ∈ ts → ¬ SatAll R cs
  all : (∀ t ∈ ts, t = some true) → SatAll R cs
  any : some true ∈ ts → SatAny R cs
  notAny : (∀ t ∈ ts, t = some false) → ¬ SatAny R cs
  known : AnsweredAll R cs → none ∉ ts
  completeAll : NegatesAnsweredAll R cs → SatAll R cs → ∀ t ∈ ts, t = some true
  completeAny : NegatesAnsweredAll R cs → SatAny R cs → some true ∈ ts

theorem agreeAll_nil (R : Answers) : AgreeAll R [] [] := by
  constructor <;> simp [SatAll, SatAny]

theorem agreeAll_cons {R : Answers} {c : Cond} {cs : List Cond} {t : Option Bool} {ts : List (Option Bool)}
    (h : Agrees R c t) (hs : AgreeAll R cs ts) : AgreeAll R (c :: cs) (t :: ts) := by
  constructor
  · intro hm hsat
    rcases List.mem_cons.mp hm with e | e
    · have := (h.right false e.symm).mp hsat.1
      cases this
    · exact hs.notAll e hsat.2
  · intro hall
    exact ⟨(h.right true (hall t (List.mem_cons_self ..))).mpr rfl, hs.all fun u hu => hall u (List.mem_cons_of_mem _ hu)⟩
  · intro hm
    rcases List.mem_cons.mp hm with e | e
    · exact Or.inl ((h.right true e.symm).mpr rfl)
    · exact Or.inr (hs.any e)
  · rintro hall (hsat | hsat)
    · have := (h.right false (hall t (List.mem_cons_self ..))).mp hsat
      cases this
    · exact hs.notAny (fun u hu => hall u (List.mem_cons_of_mem _ hu)) hsat
  · rintro ⟨h1, h2⟩ hm
    rcases List.mem_cons.mp hm with e | e
    · exact h.known h1 e.symm
    · exact hs.known h2 e
  · rintro ⟨h1, h2⟩ ⟨h3, h4⟩ u hu
    rcases List.mem_cons.mp hu with rfl | hu
    · exact h.complete h1 h3
    · exact hs.completeAll h2 h4 u hu
  · rintro ⟨h1, h2⟩ (h3 | h3)
    · rw [h.complete h1 h3]
      exact List.mem_cons_self ..
    · exact List.mem_cons_of_mem _ (hs.completeAny h2 h3)

theorem all_true_of {ts : List (Option Bool)} {b : Bool} (h1 : some (!b) ∉ ts) (h2 : none ∉ ts) :
    ∀ t ∈ ts, t = some b := by
  intro t ht
  cases t with
  | none => exact absurd ht h2
  | some c =>
    cases c <;> cases b <;> first | rfl | exact absurd ht h1

/-- `and` of conditions. -/
theorem agrees_and {R : Answers} {cs : List Cond} {ts : List (Option Bool)} (h : AgreeAll R cs ts) :
    (∀ b, andLoop (some true) ts = some b → (SatAll R cs ↔ b = true)) ∧
    (AnsweredAll R cs → andLoop (some true) ts ≠ none) ∧
    (NegatesAnsweredAll R cs → SatAll R cs → andLoop (some true) ts = some true) := by
  rw [andLoop_eq _ (by simp)]
  by_cases hf : some false ∈ ts
  · rw [if_pos hf]
    have := h.notAll hf
    exact ⟨fun b hb => by cases hb; simp [this], by simp, fun _ hs => absurd hs this⟩
  · rw [if_neg hf]
    by_cases hn : none ∈ ts
    · rw [if_pos hn]
      refine ⟨by simp, fun hk => absurd hn (h.known hk), fun hk hs => ?_⟩
      have := h.completeAll hk hs none hn
      cases this
    · rw [if_neg hn]
      have := h.all (all_true_of (b := true) hf hn)
      exact ⟨fun b hb => by cases hb; simp [this], by simp, fun _ _ => rfl⟩

/-- `or` of conditions. -/
theorem agrees_or {R : Answers} {cs : List Cond} {ts : List (Option Bool)} (h : AgreeAll R cs ts) :
    (∀ b, orLoop (some false) ts = some b → (SatAny R cs ↔ b = true)) ∧
    (AnsweredAll R cs → orLoop (some false) ts ≠ none) ∧
    (NegatesAnsweredAll R cs → SatAny R cs → orLoop (some false) ts = some true) := by
  rw [orLoop_eq _ (by simp)]
  by_cases ht : some true ∈ ts
  · rw [if_pos ht]
    have := h.any ht
    exact ⟨fun b hb => by cases hb; simp [this], by simp, fun _ _ => rfl⟩
  · rw [if_neg ht]
    by_cases hn : none ∈ ts
    · rw [if_pos hn]
      exact ⟨by simp, fun hk => absurd hn (h.known hk), fun hk hs => absurd (h.completeAny hk hs) ht⟩
    · rw [if_neg hn]
      have := h.notAny (all_true_of (b := false) ht hn)
      exact ⟨fun b hb => by cases hb; simp [this], by simp, fun _ hs => absurd hs this⟩

theorem pointwise_nil {α β} {P : α → β → Prop} {ts : List β} (h : Pointwise P [] ts) : ts = [] := by
  cases h; rfl

theorem answered_negates (R : Answers) : (∀ c, Answered R c → NegatesAnswered R c) := by
  apply Cond.rec (motive_1 := fun c => Answered R c → NegatesAnswered R c)
    (motive_2 := fun cs => AnsweredAll R cs → NegatesAnsweredAll R cs)
  · exact fun cs ih h => ih h
  · exact fun cs ih h => ih h
  · exact fun cs ih h => h
  · exact fun _ => trivial
  · exact fun r _ => trivial
  · exact fun t r i s _ => trivial
  · exact fun _ => trivial
  · exact fun c cs h1 h2 h => ⟨h1 h.1, h2 h.2⟩

/-- The implicit `and`. -/
theorem implicit_and {st : State} {R : Answers} {cs : List Cond} {es : List Expr} {ts : List (Option Bool)}
    (hne : cs ≠ []) (hl : es.length = cs.length) (ht : Truths st es ts) (ha : AgreeAll R cs ts) :
    ∃ e t, (implicitAnd es = e ∧ (∀ e', es = [e'] → e = e') ∧ (∀ e' e'' l, es = e' :: e'' :: l → e = .node .and es)) ∧
      TruthIs st e t ∧ (∀ b, t = some b → (SatAll R cs ↔ b = true)) ∧ (AnsweredAll R cs → t ≠ none) ∧
      (NegatesAnsweredAll R cs → SatAll R cs → t = some true) := by
  match es, hl, ht with
  | [], hl, _ =>
    cases cs with
    | nil => exact absurd rfl hne
    | cons => cases hl
  | [e], _, ht =>
    cases ht with
    | @cons _ t _ ts' h1 h2 =>
      cases h2
      refine ⟨e, t, ⟨rfl, fun e' h => by cases h; rfl, by simp⟩, h1, ?_, ?_, ?_⟩
      · intro b hb
        subst hb
        cases b with
        | true => simp only [iff_true]; exact ha.all (by simp)
        | false => simp only [Bool.false_eq_true, iff_false]; exact ha.notAll (by simp)
      · intro hk hn
        exact ha.known hk (by simp [hn])
      · intro hk hs
        exact ha.completeAll hk hs t (by simp)
  | e :: e' :: l, _, ht =>
    obtain ⟨a1, a2, a3⟩ := agrees_and ha
    exact ⟨_, _, ⟨rfl, by simp, fun _ _ _ _ => rfl⟩, truthIs_bool (and_eval ht), a1, a2, a3⟩

mutual
/-- Every supported condition. -/
theorem cond_agrees {env : Env} {st : State} {R : Answers} (hh : HoldsAnswers env st R) :
    ∀ c, Supported R c → ∃ e t, condExpr env c = .ok e ∧ TruthIs st e t ∧ Agrees R c t
  | .and cs, hs => by
    obtain ⟨es, ts, h1, h2, h3, _⟩ := conds_agree hh cs hs
    obtain ⟨a1, a2, a3⟩ := agrees_and h3
    refine ⟨_, _, ?_, truthIs_bool (and_eval h2), ⟨a1, a2, a3⟩⟩
    rw [condExpr, h1]
    rfl
  | .or cs, hs => by
    obtain ⟨es, ts, h1, h2, h3, _⟩ := conds_agree hh cs hs
    obtain ⟨a1, a2, a3⟩ := agrees_or h3
    refine ⟨_, _, ?_, truthIs_bool (or_eval h2), ⟨a1, a2, a3⟩⟩
    rw [condExpr, h1]
    rfl
  | .not cs, ⟨hne, hs⟩ => by
    obtain ⟨es, ts, h1, h2, h3, hl⟩ := conds_agree hh cs hs
    obtain ⟨e, t, ⟨_, he1, he2⟩, hT, a1, a2, a3⟩ := implicit_and hne hl h2 h3
    refine ⟨.node .not [e], t.map (!·), ?_, truthIs_bool (not_three_valued st e t (.cons hT .nil)), ?_⟩
    · rw [condExpr, h1]
      show Except.ok (notExpr es) = _
      congr 1
      match es, hl with
      | [], hl =>
        cases cs with
        | nil => exact absurd rfl hne
        | cons => cases hl
      | [e'], _ => rw [he1 e' rfl]; rfl
      | e' :: e'' :: l, _ => rw [he2 e' e'' l rfl]; rfl
    · refine ⟨?_, ?_, ?_⟩
      · intro b hb
        cases t with
        | none => cases hb
        | some c =>
          have := a1 c rfl
          cases hb
          simp only [Sat, this]
          cases c <;> simp
      · intro hk
        have := a2 hk
        cases t with
        | none => exact absurd rfl this
        | some c => simp
      · intro hk hsat
        have := a2 hk
        cases t with
        | none => exact absurd rfl this
        | some c =>
          have hc := a1 c rfl
          cases c with
          | false => rfl
          | true => exact absurd (hc.mpr rfl) hsat
  | .other, _ => ⟨_, some true, rfl, ⟨_, rfl, .bool true⟩, ⟨fun b hb => by cases hb; simp [Sat], by simp, fun _ _ => rfl⟩⟩
  | .unanswered r, ⟨a, hr⟩ => by
    obtain ⟨id, v, henv, hget, hv⟩ := hh.2 r a hr
    have hev : eval st (.node .isNull [.leaf (.variable id)]) = .ok (boolV (some v.isNull)) := by
      rw [eval_one (by simp) (variable_eval hget)]
      rfl
    have hiff : v.isNull = true ↔ a.values = [] := by
      cases hv <;> simp [Value.isNull]
    refine ⟨_, _, ?_, truthIs_bool hev, ?_⟩
    · rw [condExpr, henv]
    · have hsat : Sat R (.unanswered r) ↔ a.values = [] := by
        constructor
        · rintro ⟨a', h1, h2⟩
          rw [hr] at h1
          cases h1
          exact h2
        · exact fun h => ⟨a, hr, h⟩
      refine ⟨?_, by simp, ?_⟩
      · intro b hb
        cases hb
        rw [hsat, hiff]
      · intro _ h
        rw [hiff.mpr (hsat.mp h)]
  | .test t r i text, ⟨a, y, hr, hy, ht⟩ => by
    obtain ⟨e, v, h1, h2, h3⟩ := test_right hh hr hy ht
    have hsat : Sat R (.test t r i text) ↔ ∃ x ∈ selected a i, Passes t a.bt x y := by
      constructor
      · rintro ⟨a', x, y', e1, e2, e3, e4⟩
        rw [hr] at e1
        cases e1
        rw [denotes_unique hy e2]
        exact ⟨x, e3, e4⟩
      · rintro ⟨x, e3, e4⟩
        exact ⟨a, x, y, hr, hy, e3, e4⟩
    refine ⟨e, v, h1, h2, ?_, ?_, ?_⟩
    · intro b hb
      have hne : selected a i ≠ [] := by
        intro hnil
        rw [h3.1 hnil] at hb
        cases hb
      obtain ⟨c, hc, hi⟩ := h3.2 hne
      rw [hb] at hc
      cases hc
      rw [hsat, hi]
    · rintro ⟨a', e1, hne⟩
      rw [hr] at e1
      cases e1
      obtain ⟨c, hc, _⟩ := h3.2 hne
      rw [hc]
      simp
    · intro _ hs
      obtain ⟨x, hx, hp⟩ := hsat.mp hs
      obtain ⟨c, hc, hi⟩ := h3.2 (List.ne_nil_of_mem hx)
      rw [hc, hi.mpr ⟨x, hx, hp⟩]
/-- Several supported conditions. -/
theorem conds_agree {env : Env} {st : State} {R : Answers} (hh : HoldsAnswers env st R) :
    ∀ cs, SupportedAll R cs → ∃ es ts, condExprs env cs = .ok es ∧ Truths st es ts ∧ AgreeAll R cs ts ∧
      es.length = cs.length
  | [], _ => ⟨[], [], rfl, .nil, agreeAll_nil R, rfl⟩
  | c :: cs, ⟨hc, hcs⟩ => by
    obtain ⟨e, t, h1, h2, h3⟩ := cond_agrees hh c hc
    obtain ⟨es, ts, i1, i2, i3, i4⟩ := conds_agree hh cs hcs
    refine ⟨e :: es, t :: ts, ?_, .cons h2 i2, agreeAll_cons h3 i3, by simp [i4]⟩
    rw [condExprs, h1, i1]
    rfl
end

/-- **C17 (guarded).** The migrated condition evaluates, and
* whenever it evaluates to a truth value that is whether the original condition is satisfied;
* it evaluates to a truth value when everything it tests was answered;
* it is true exactly when the original condition is satisfied, provided that what is tested inside `not` was
  answered. -/
theorem condition_meaning_partial {env : Env} {st : State} {R : Answers} (hh : HoldsAnswers env st R) (cs : List Cond)
    (hne : cs ≠ []) (hs : SupportedAll R cs) :
    ∃ e v t, conditionVar env cs = .ok e ∧ eval st e = .ok v ∧ IsTruth v t ∧
      (∀ b, t = some b → (SatAll R cs ↔ b = true)) ∧
      (AnsweredAll R cs → t ≠ none) ∧
      (NegatesAnsweredAll R cs → (t = some true ↔ SatAll R cs)) := by
  obtain ⟨es, ts, h1, h2, h3, h4⟩ := conds_agree hh cs hs
  obtain ⟨e, t, ⟨he, _⟩, ⟨v, hv, hvt⟩, a1, a2, a3⟩ := implicit_and hne h4 h2 h3
  refine ⟨e, v, t, ?_, hv, hvt, a1, a2, fun hk => ⟨fun h => (a1 true h).mpr rfl, a3 hk⟩⟩
  rw [conditionVar, h1, ← he]
  rfl

/-- A negated test of a response without answer is satisfied, but the migrated condition is NULL, which counts as
false. -/
theorem negated_test_unanswered {env : Env} {st : State} {R : Answers} (hh : HoldsAnswers env st R) (t : Test) (r : Str)
    (a : Answer) (i : Option Int) (text : Str) (hr : R r = some a) (hs : Supported R (.test t r i text))
    (ha : a.values = []) :
    Sat R (.not [.test t r i text]) ∧
    ∃ e, conditionVar env [.not [.test t r i text]] = .ok e ∧ branchTest st (some e) = .ok false := by
  have hsel : selected a i = [] := by
    cases i with
    | none => exact ha
    | some n => simp [selected, ha]
  constructor
  · rintro ⟨⟨a', x, y, h1, _, h3, _⟩, _⟩
    rw [hr] at h1
    cases h1
    rw [hsel] at h3
    cases h3
  · obtain ⟨a', y, h1, h2, h3⟩ := hs
    rw [hr] at h1
    cases h1
    obtain ⟨e, v, i1, i2, i3⟩ := test_right hh hr h2 h3
    rw [i3.1 hsel] at i2
    refine ⟨.node .not [e], ?_, ?_⟩
    · simp only [conditionVar, condExprs, condExpr, i1, bind, Except.bind, notExpr, implicitAnd]
    · simp only [branchTest, not_three_valued st e none (.cons i2 .nil), bind, Except.bind]
      rfl

/-- A session with a text response `T` (answered `ab`), a multiple choice `M` (answered `A` and `B`), and an
ordered response `O` of numbers, unanswered choice `S`. -/
def answerSession : State :=
  ⟨[(['T'], .single (some .string) (some (.str ['a', 'b']))),
    (['M'], .multiple (some .identifier) [.str ['A'], .str ['B']]),
    (['O'], .ordered (some .float) [.num 1, .num 3]), (['S'], .single (some .identifier) none)], []⟩

/-- Its sampleAnswers. -/
def sampleAnswers : Answers := fun r =>
  if r = ['T'] then some ⟨.single, .string, [.str ['a', 'b']]⟩
  else if r = ['M'] then some ⟨.multiple, .identifier, [.str ['A'], .str ['B']]⟩
  else if r = ['O'] then some ⟨.ordered, .float, [.num 1, .num 3]⟩
  else if r = ['S'] then some ⟨.single, .identifier, []⟩ else none

/-- Its declarations. -/
def answerEnv : Env := fun r => (sampleAnswers r).map fun a => (r, a.card, a.bt)

theorem answers_held : HoldsAnswers answerEnv answerSession sampleAnswers := by
  have n1 : Names.isValidNCName ['A'] = true := by decide +kernel
  have n2 : Names.isValidNCName ['B'] = true := by decide +kernel
  constructor
  · intro p hp
    simp only [answerSession, List.mem_cons, List.not_mem_nil, or_false] at hp
    rcases hp with rfl | rfl | rfl | rfl
    · exact .single (.string _ (by simp))
    · refine .multiple ?_
      intro a ha
      simp at ha
      rcases ha with rfl | rfl
      · exact ⟨_, rfl, .identifier _ n1, trivial⟩
      · exact ⟨_, rfl, .identifier _ n2, trivial⟩
    · refine .ordered ?_
      intro a ha
      simp at ha
      rcases ha with rfl | rfl
      · exact ⟨_, rfl, .float _, trivial⟩
      · exact ⟨_, rfl, .float _, trivial⟩
    · exact .null _
  · intro r a hr
    refine ⟨r, ?_⟩
    unfold answerEnv
    rw [hr]
    unfold sampleAnswers at hr
    by_cases h1 : r = ['T']
    · subst h1
      cases hr
      exact ⟨_, rfl, rfl, .single _ _⟩
    · rw [if_neg h1] at hr
      by_cases h2 : r = ['M']
      · subst h2
        cases hr
        exact ⟨_, rfl, rfl, .multiple _ _⟩
      · rw [if_neg h2] at hr
        by_cases h3 : r = ['O']
        · subst h3
          cases hr
          exact ⟨_, rfl, rfl, .ordered _ _⟩
        · rw [if_neg h3] at hr
          by_cases h4 : r = ['S']
          · subst h4
            cases hr
            exact ⟨_, rfl, rfl, .none _⟩
          · rw [if_neg h4] at hr
            cases hr

theorem plain_letter (c : Char) (h1 : c.toNat < 91) (h2 : 65 ≤ c.toNat) : PlainName [c] := by
  refine ⟨⟨c, [], rfl, ?_, by simp, ?_⟩, ?_⟩
  · unfold XmlNameStart
    dsimp only
    omega
  · intro d hd
    simp at hd
    subst hd
    intro e
    subst e
    exact absurd h2 (by decide)
  · intro d hd
    simp at hd
    subst hd
    refine ⟨?_, ?_, by omega⟩
    · intro e
      subst e
      exact absurd h2 (by decide)
    · unfold Names.isSpace
      simp
      omega

/-- The hypotheses are met: `B` chosen, and not (second number below 2.5), and the choice `S` unanswered. -/
example : SupportedAll sampleAnswers [.test (.varequal false) ['M'] none ['B'],
      .not [.test .varlt ['O'] (some 2) "2.5".toList], .unanswered ['S']] ∧
    NegatesAnsweredAll sampleAnswers [.test (.varequal false) ['M'] none ['B'],
      .not [.test .varlt ['O'] (some 2) "2.5".toList], .unanswered ['S']] ∧
    SatAll sampleAnswers [.test (.varequal false) ['M'] none ['B'],
      .not [.test .varlt ['O'] (some 2) "2.5".toList], .unanswered ['S']] := by
  have d1 : Denotes .identifier ['B'] (.str ['B']) := .identifier (plain_letter 'B' (by decide) (by decide))
  have d2 : Denotes .float "2.5".toList (.num (5 / 2)) := .float ((double_read _ _).mp (by decide +kernel))
  refine ⟨⟨⟨_, _, rfl, d1, Or.inr ⟨⟨Or.inr rfl, Or.inl rfl⟩, by simp, by simp⟩⟩,
      ⟨by simp, ⟨_, _, rfl, d2, Or.inr ⟨rfl, 2, rfl, by decide⟩, Or.inr rfl⟩, trivial⟩, ⟨_, rfl⟩, trivial⟩,
    ⟨trivial, ⟨⟨_, rfl, by simp [selected]⟩, trivial⟩, trivial, trivial⟩, ⟨_, .str ['B'], _, rfl, d1, by simp [selected], ?_⟩,
    ?_, ⟨_, rfl, rfl⟩, trivial⟩
  · simp [Passes]
  · rintro ⟨⟨a, x, y, h1, h2, h3, p, q, h4, h5, h6⟩, _⟩
    cases h1
    have := denotes_unique d2 h2
    subst this
    simp [selected] at h3
    subst h3
    cases h4
    cases h5
    exact absurd h6 (by decide +kernel)

/-- The migrated condition is true. -/
example : (conditionVar answerEnv [.test (.varequal false) ['M'] none ['B'],
      .not [.test .varlt ['O'] (some 2) "2.5".toList], .unanswered ['S']] >>= eval answerSession) =
    .ok (boolV (some true)) := by
  decide +kernel

/-- `varsubstring` is turned round: the answer `ab` contains `a`, but the migrated condition is false. -/
theorem varsubstring_reversed :
    Sat sampleAnswers (.test (.varsubstring true) ['T'] none ['a']) ∧
    (conditionVar answerEnv [.test (.varsubstring true) ['T'] none ['a']] >>= eval answerSession) =
      .ok (boolV (some false)) :=
  ⟨⟨_, .str ['a', 'b'], .str ['a'], rfl, .string (by simp), by simp [selected], ['a', 'b'], ['a'], rfl, rfl, [], ['b'], rfl⟩,
    by decide +kernel⟩

/-- The set of several identifiers of a `varsubset` becomes one identifier, which no answer equals: with `A` and
`B` chosen the migrated condition is false. -/
theorem varsubset_list_lost :
    (conditionVar answerEnv [.test .varsubset ['M'] none "A,B".toList] >>= eval answerSession) =
      .ok (boolV (some false)) := by
  decide +kernel

/-- An inequality on text makes the whole response processing fail. -/
theorem text_inequality_fails :
    (conditionVar answerEnv [.test .varlt ['T'] none ['b']] >>= eval answerSession) = .error .processingError := by
  decide +kernel

end Verif.Props
