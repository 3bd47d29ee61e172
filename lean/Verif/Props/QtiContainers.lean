import Verif.Props.QtiTypes

/-!
# Container operators of QTI expressions
-/

namespace Verif.Props

open Verif Verif.Qti Verif.Spec

set_option linter.unusedVariables false

/-- Evaluation of an operator with one operand. -/
theorem eval_one {st : State} {op : Op} (hop : op ≠ .custom) {e : Expr} {v : Value} (h : eval st e = .ok v) :
    eval st (.node op [e]) = applyOp op [v] := by
  rw [eval_node st op _ hop, evalAll, evalAll, h]
  rfl

/-- Evaluation of an operator with two operands. -/
theorem eval_two {st : State} {op : Op} (hop : op ≠ .custom) {e f : Expr} {v w : Value} (he : eval st e = .ok v)
    (hf : eval st f = .ok w) : eval st (.node op [e, f]) = applyOp op [v, w] := by
  rw [eval_node st op _ hop, evalAll, evalAll, evalAll, he, hf]
  rfl

/-- Evaluation of an operator with any number of operands. -/
theorem eval_many {st : State} {op : Op} (hop : op ≠ .custom) {es : List Expr} {vs : List Value}
    (h : Pointwise (fun e v => eval st e = .ok v) es vs) : eval st (.node op es) = applyOp op vs := by
  rw [eval_node st op _ hop, (evalAll_ok st es vs).mpr h]
  rfl

theorem pointwise_typed {st : State} (hst : GoodState st) {es : List Expr} {vs : List Value}
    (h : Pointwise (fun e v => eval st e = .ok v) es vs) : ∀ v ∈ vs, WellTyped v :=
  evalAll_typed st hst es vs ((evalAll_ok st es vs).mpr h)

/-! ## Building containers -/

/-- An operand of `multiple` (`ordered`): NULL, or a single value or a container of the right kind, of the
base type; integers fit in 32 bits. -/
def Operand (inner : Card) (bt : BaseType) (v : Value) : Prop :=
  (v.bt = none ∨ v.bt = some bt) ∧ (v.card = none ∨ v.card = some .single ∨ v.card = some inner) ∧
  ∀ a ∈ members v, InRange a

theorem null_members {v : Value} (ht : WellTyped v) (hb : v.bt = none) : members v = [] := by
  cases ht with
  | unknown => rfl
  | container _ => rfl
  | null _ => rfl
  | single _ => cases hb
  | @ordered bt as h =>
    cases as with
    | nil => rfl
    | cons a as =>
      obtain ⟨b, h1, _⟩ := h a (List.mem_cons_self ..)
      rw [Value.bt, h1] at hb
      cases hb
  | @multiple bt as h =>
    cases as with
    | nil => rfl
    | cons a as =>
      obtain ⟨b, h1, _⟩ := h a (List.mem_cons_self ..)
      rw [Value.bt, h1] at hb
      cases hb
  | record _ => rfl

theorem gather_ok (inner : Card) (hi : inner = .multiple ∨ inner = .ordered) (bt : BaseType) :
    ∀ (vs : List Value) (b : Option BaseType), (b = none ∨ b = some bt) →
    (∀ v ∈ vs, WellTyped v ∧ Operand inner bt v) →
    gather inner b vs = .ok (if vs.all (fun v => v.bt.isNone) then b else some bt, vs.flatMap members)
  | [], b, hb, _ => by simp [gather]
  | v :: vs, b, hb, h => by
    have htl := fun w hw => h w (List.mem_cons_of_mem _ hw)
    obtain ⟨ht, h1, h2, h3⟩ := h v (List.mem_cons_self ..)
    unfold gather
    rcases h1 with h1 | h1
    · rw [h1]
      dsimp only
      rw [gather_ok inner hi bt vs b hb htl, List.flatMap_cons, null_members ht h1]
      simp [h1]
    · rw [h1]
      dsimp only
      have hif : ¬ (b ≠ none ∧ b ≠ some bt) := by
        rcases hb with hb | hb <;> simp [hb]
      rw [if_neg hif]
      have key := gather_ok inner hi bt vs (some bt) (Or.inr rfl) htl
      have ht2 : (if vs.all (fun v => v.bt.isNone) then some bt else some bt) = some bt := by split <;> rfl
      rw [ht2] at key
      have hall : (v :: vs).all (fun v => v.bt.isNone) = false := by simp [h1]
      rw [key, hall, List.flatMap_cons]
      cases ht with
      | unknown => cases h1
      | container _ => rfl
      | null _ => rfl
      | single _ => rfl
      | @ordered b' as h =>
        by_cases hn : as = []
        · subst hn; rfl
        · rw [if_neg (by simp [Value.isNull, hn])]
          rcases h2 with h2 | h2 | h2
          · cases h2
          · cases h2
          · have : inner = .ordered := (Option.some.inj h2).symm
            subst this
            rfl
      | @multiple b' as h =>
        by_cases hn : as = []
        · subst hn; rfl
        · rw [if_neg (by simp [Value.isNull, hn])]
          rcases h2 with h2 | h2 | h2
          · cases h2
          · cases h2
          · have : inner = .multiple := (Option.some.inj h2).symm
            subst this
            rfl
      | record _ => cases h1

theorem gathered_typed {inner : Card} {bt : BaseType} {vs : List Value}
    (h : ∀ v ∈ vs, WellTyped v ∧ Operand inner bt v) :
    AllTyped (if vs.all (fun v => v.bt.isNone) then none else some bt) (vs.flatMap members) := by
  intro a ha
  obtain ⟨v, hv, hm⟩ := List.mem_flatMap.mp ha
  obtain ⟨ht, h1, _, h3⟩ := h v hv
  obtain ⟨b, hb, hab⟩ := typed_members ht a hm
  rcases h1 with h1 | h1
  · rw [h1] at hb; cases hb
  · rw [h1] at hb
    cases hb
    refine ⟨bt, ?_, hab, h3 a hm⟩
    rw [if_neg]
    intro hall
    have := List.all_eq_true.mp hall v hv
    rw [h1] at this
    cases this

/-- `multiple` of operands of one base type: a container in which everything occurs as often as in all
the operands together; NULL operands add nothing. -/
theorem multiple_unites (st : State) (hst : GoodState st) (es : List Expr) (vs : List Value) (bt : BaseType)
    (h : Pointwise (fun e v => eval st e = .ok v) es vs) (ho : ∀ v ∈ vs, Operand .multiple bt v) :
    ∃ b as, eval st (.node .multiple es) = .ok (.multiple b as) ∧
      (∀ a, occurrences a as = (vs.map fun v => occurrences a (members v)).sum) ∧
      ((∃ v ∈ vs, v.bt ≠ none) → b = some bt) := by
  have hall : ∀ v ∈ vs, WellTyped v ∧ Operand .multiple bt v := fun v hv => ⟨pointwise_typed hst h v hv, ho v hv⟩
  refine ⟨if vs.all (fun v => v.bt.isNone) then none else some bt, vs.flatMap members, ?_, ?_, ?_⟩
  · rw [eval_many (by simp) h]
    simp only [applyOp, gather_ok .multiple (Or.inl rfl) bt vs none (Or.inl rfl) hall, bind, Except.bind,
      containerOf_same (gathered_typed hall)]
    rfl
  · intro a
    unfold occurrences
    rw [List.filter_flatMap, List.length_flatMap]
  · rintro ⟨v, hv, hb⟩
    rw [if_neg]
    intro hc
    have := List.all_eq_true.mp hc v hv
    cases hvb : v.bt with
    | none => exact hb hvb
    | some _ => rw [hvb] at this; cases this

/-- `ordered` of operands of one base type: their members, in order. -/
theorem ordered_concatenates (st : State) (hst : GoodState st) (es : List Expr) (vs : List Value) (bt : BaseType)
    (h : Pointwise (fun e v => eval st e = .ok v) es vs) (ho : ∀ v ∈ vs, Operand .ordered bt v) :
    ∃ b, eval st (.node .ordered es) = .ok (.ordered b (vs.flatMap members)) ∧
      ((∃ v ∈ vs, v.bt ≠ none) → b = some bt) := by
  have hall : ∀ v ∈ vs, WellTyped v ∧ Operand .ordered bt v := fun v hv => ⟨pointwise_typed hst h v hv, ho v hv⟩
  refine ⟨if vs.all (fun v => v.bt.isNone) then none else some bt, ?_, ?_⟩
  · rw [eval_many (by simp) h]
    simp only [applyOp, gather_ok .ordered (Or.inr rfl) bt vs none (Or.inl rfl) hall, bind, Except.bind,
      containerOf_same (gathered_typed hall)]
    rfl
  · rintro ⟨v, hv, hb⟩
    rw [if_neg]
    intro hc
    have := List.all_eq_true.mp hc v hv
    cases hvb : v.bt with
    | none => exact hb hvb
    | some _ => rw [hvb] at this; cases this

theorem gather_mixed (inner : Card) : ∀ (vs : List Value) (b : Option BaseType) (x y : BaseType), x ≠ y →
    (b = some x ∨ ∃ v ∈ vs, v.bt = some x) → (∃ v ∈ vs, v.bt = some y) →
    ∃ e, gather inner b vs = .error e
  | [], b, x, y, hxy, _, ⟨v, hv, _⟩ => by cases hv
  | v :: vs, b, x, y, hxy, hx, hy => by
    unfold gather
    cases hvb : v.bt with
    | none =>
      dsimp only
      refine gather_mixed inner vs b x y hxy ?_ ?_
      · rcases hx with hx | ⟨w, hw, hwx⟩
        · exact Or.inl hx
        · rcases List.mem_cons.mp hw with rfl | hw
          · rw [hvb] at hwx; cases hwx
          · exact Or.inr ⟨w, hw, hwx⟩
      · obtain ⟨w, hw, hwy⟩ := hy
        rcases List.mem_cons.mp hw with rfl | hw
        · rw [hvb] at hwy; cases hwy
        · exact ⟨w, hw, hwy⟩
    | some c =>
      dsimp only
      split
      · exact ⟨_, rfl⟩
      · rename_i hbc
        have rest : ∃ e, gather inner (some c) vs = .error e := by
          by_cases hcx : c = x
          · subst hcx
            refine gather_mixed inner vs (some c) c y hxy (Or.inl rfl) ?_
            obtain ⟨w, hw, hwy⟩ := hy
            rcases List.mem_cons.mp hw with rfl | hw
            · rw [hvb] at hwy; exact absurd (Option.some.inj hwy) hxy
            · exact ⟨w, hw, hwy⟩
          · refine gather_mixed inner vs (some c) c x hcx (Or.inl rfl) ?_
            rcases hx with hx | ⟨w, hw, hwx⟩
            · exact absurd ⟨by simp [hx], by rw [hx]; exact fun e => hcx (Option.some.inj e).symm⟩ hbc
            · rcases List.mem_cons.mp hw with rfl | hw
              · rw [hvb] at hwx; exact absurd (Option.some.inj hwx) hcx
              · exact ⟨w, hw, hwx⟩
        obtain ⟨e, he⟩ := rest
        rw [he]
        split
        · exact ⟨e, rfl⟩
        · split
          · exact ⟨e, rfl⟩
          · split <;> exact ⟨_, rfl⟩
          · split <;> exact ⟨_, rfl⟩
          · exact ⟨_, rfl⟩

/-- Operands of different base types are never combined. -/
theorem mixed_base_types_rejected (st : State) (es : List Expr) (vs : List Value)
    (h : Pointwise (fun e v => eval st e = .ok v) es vs) (v w : Value) (hv : v ∈ vs) (hw : w ∈ vs)
    (x y : BaseType) (hx : v.bt = some x) (hy : w.bt = some y) (hxy : x ≠ y) :
    (∃ e, eval st (.node .multiple es) = .error e) ∧ ∃ e, eval st (.node .ordered es) = .error e := by
  constructor
  · obtain ⟨e, he⟩ := gather_mixed .multiple vs none x y hxy (Or.inr ⟨v, hv, hx⟩) ⟨w, hw, hy⟩
    refine ⟨e, ?_⟩
    rw [eval_many (by simp) h]
    simp only [applyOp, he]
    rfl
  · obtain ⟨e, he⟩ := gather_mixed .ordered vs none x y hxy (Or.inr ⟨v, hv, hx⟩) ⟨w, hw, hy⟩
    refine ⟨e, ?_⟩
    rw [eval_many (by simp) h]
    simp only [applyOp, he]
    rfl

/-! ## Looking into containers -/

/-- A container: its base type and members. -/
inductive IsContainer : Value → Card → BaseType → List Atom → Prop where
  | ordered (bt as) : IsContainer (.ordered (some bt) as) .ordered bt as
  | multiple (bt as) : IsContainer (.multiple (some bt) as) .multiple bt as

theorem intV_fits {i : Int} (h : Fits i) : intV (some i) = .ok (.single (some .integer) (some (.int i))) := by
  simp only [intV]
  rw [if_pos ((int32_fits i).mpr h)]

/-- `containerSize` counts the members, and is 0 for a NULL container. -/
theorem container_size (st : State) (e : Expr) (c : Value) (card : Card) (bt : BaseType) (as : List Atom)
    (he : eval st e = .ok c) (hc : IsContainer c card bt as) (hf : Fits as.length) :
    eval st (.node .containerSize [e]) = .ok (.single (some .integer) (some (.int as.length))) := by
  rw [eval_one (by simp) he]
  cases hc <;> simp only [applyOp, one, bind, Except.bind] <;> exact intV_fits hf

/-- `member`: does the single value occur in the container?  NULL when either is NULL. -/
theorem member_tests_membership (st : State) (e f : Expr) (s c : Value) (card : Card) (bt : BaseType)
    (x : Option Atom) (as : List Atom) (he : eval st e = .ok s) (hf : eval st f = .ok c)
    (hs : s = .single (some bt) x) (hc : IsContainer c card bt as) (hd : bt ≠ .duration) :
    ∃ r, eval st (.node .member [e, f]) = .ok (boolV r) ∧
      (∀ a, x = some a → as ≠ [] → (r = some true ↔ a ∈ as) ∧ (r = some false ↔ a ∉ as)) ∧
      ((x = none ∨ as = []) → r = none) := by
  subst hs
  rw [eval_two (by simp) he hf]
  have hb : c.bt = some bt := by cases hc <;> rfl
  simp only [applyOp, two, bind, Except.bind, evalMember]
  rw [hb, if_neg (by simp [Value.bt]), if_neg (by simp [Value.bt]), if_neg (by simp [Value.bt, hd])]
  by_cases hn : x = none ∨ as = []
  · refine ⟨none, ?_, ?_, fun _ => rfl⟩
    · rw [if_pos]
      rcases hn with hn | hn
      · left; simp [hn, Value.isNull]
      · right; cases hc <;> simp [hn, Value.isNull]
    · intro a ha has
      rcases hn with hn | hn
      · rw [hn] at ha; cases ha
      · exact absurd hn has
  · cases x with
    | none => exact absurd (Or.inl rfl) hn
    | some a =>
      have has : as ≠ [] := fun h => hn (Or.inr h)
      refine ⟨some (decide (a ∈ as)), ?_, ?_, fun h => absurd h hn⟩
      · rw [if_neg]
        · cases hc <;> rfl
        · cases hc <;> simp [has, Value.isNull]
      · intro b hb _
        cases hb
        simp

/-- `delete`: the container without any occurrence of the single value; NULL when either is NULL. -/
theorem delete_removes_all (st : State) (hst : GoodState st) (e f : Expr) (s c : Value) (card : Card) (bt : BaseType)
    (x : Option Atom) (as : List Atom) (he : eval st e = .ok s) (hf : eval st f = .ok c)
    (hs : s = .single (some bt) x) (hc : IsContainer c card bt as) (hd : bt ≠ .duration) :
    ∃ r bs, eval st (.node .delete [e, f]) = .ok r ∧ IsContainer r card bt bs ∧
      (∀ a, x = some a → bs = as.filter (fun b => b ≠ a)) ∧ (x = none → bs = []) := by
  subst hs
  rw [eval_two (by simp) he hf]
  have htc := eval_typed st hst f c hf
  have hb : c.bt = some bt := by cases hc <;> rfl
  simp only [applyOp, two, bind, Except.bind, evalDelete]
  rw [hb, if_neg (by simp), if_neg (by simp [Value.bt]), if_neg (by simp [Value.bt]),
    if_neg (by simp [Value.bt, hd]), if_neg (by simp [Value.card])]
  rw [if_neg (by cases hc <;> simp [Value.card])]
  cases x with
  | none =>
    cases hc with
    | ordered => exact ⟨_, [], rfl, .ordered .., fun a h => by (cases h), fun _ => rfl⟩
    | multiple => exact ⟨_, [], rfl, .multiple .., fun a h => by (cases h), fun _ => rfl⟩
  | some a =>
    cases hc with
    | ordered =>
      cases htc with
      | ordered ht =>
        refine ⟨.ordered (some bt) (as.filter (fun b => b ≠ a)), _, ?_, .ordered .., ?_, fun h => by (cases h)⟩
        · simp only [containerOf_same (filter_typed (fun x => decide (x ≠ a)) ht)]
        · intro b hb; cases hb; rfl
    | multiple =>
      cases htc with
      | multiple ht =>
        refine ⟨.multiple (some bt) (as.filter (fun b => b ≠ a)), _, ?_, .multiple .., ?_, fun h => by (cases h)⟩
        · simp only [containerOf_same (filter_typed (fun x => decide (x ≠ a)) ht)]
        · intro b hb; cases hb; rfl

/-- `index`: the n-th member of an ordered container, counting from 1; NULL beyond the end. -/
theorem index_nth (st : State) (hst : GoodState st) (e : Expr) (bt : BaseType) (as : List Atom) (n : Int)
    (he : eval st e = .ok (.ordered (some bt) as)) (hn : 1 ≤ n) (hbt : bt ≠ .file) :
    eval st (.node (.index (some n)) [e]) = .ok (.single (some bt) as[n.toNat - 1]?) := by
  have ht := eval_typed st hst e _ he
  rw [eval_one (by simp) he]
  simp only [applyOp, one, bind, Except.bind, newNull]
  rw [if_neg (by simp [hbt])]
  dsimp only
  cases as with
  | nil => rfl
  | cons a as =>
    rw [if_neg (by simp)]
    rw [if_neg (by omega)]
    cases hg : (a :: as)[n.toNat - 1]? with
    | none => rfl
    | some b =>
      cases ht with
      | ordered ht =>
        obtain ⟨_, hc, h1, h2⟩ := ht b (List.mem_of_getElem? hg)
        cases hc
        simp only [setSingle, fromAtom_same h1 h2]
        rfl

/-- `random` picks a member, whatever the random number drawn. -/
theorem random_picks_member (st : State) (hst : GoodState st) (e : Expr) (c : Value) (card : Card) (bt : BaseType)
    (as : List Atom) (draw : Nat) (he : eval st e = .ok c) (hc : IsContainer c card bt as) (hbt : bt ≠ .file)
    (has : as ≠ []) :
    ∃ a ∈ as, eval st (.node (.random draw) [e]) = .ok (.single (some bt) (some a)) := by
  have htc := eval_typed st hst e c he
  have hlt : draw % as.length < as.length := Nat.mod_lt _ (by cases as; exact absurd rfl has; simp)
  have hg : as[draw % as.length]? = some as[draw % as.length] := List.getElem?_eq_getElem hlt
  refine ⟨as[draw % as.length], List.getElem_mem hlt, ?_⟩
  rw [eval_one (by simp) he]
  have hall : AllTyped (some bt) as := by
    cases hc with
    | ordered => cases htc with | ordered h => exact h
    | multiple => cases htc with | multiple h => exact h
  obtain ⟨_, hb, h1, h2⟩ := hall _ (List.getElem_mem hlt)
  cases hb
  have : applyOp.pick (some bt) as draw = .ok (.single (some bt) (some as[draw % as.length])) := by
    simp only [applyOp.pick, newNull]
    rw [if_neg (by simp [hbt])]
    simp only [bind, Except.bind, hg, setSingle, fromAtom_same h1 h2]
  cases hc <;> simp only [applyOp, one, bind, Except.bind, this]

/-! ## Comparing containers -/

theorem isInfix_iff (xs : List Atom) : ∀ ys : List Atom, isInfix xs ys = true ↔ Consecutive xs ys
  | [] => by
    simp only [isInfix, List.isEmpty_iff, Consecutive]
    constructor
    · rintro rfl; exact ⟨[], [], rfl⟩
    · rintro ⟨b, a, h⟩
      simp at h
      exact h.2.1
  | y :: ys => by
    rw [isInfix, Bool.or_eq_true, isInfix_iff xs ys, List.isPrefixOf_iff_prefix]
    constructor
    · rintro (⟨t, h⟩ | ⟨b, a, h⟩)
      · exact ⟨[], t, by simpa using h.symm⟩
      · exact ⟨y :: b, a, by rw [h]; rfl⟩
    · rintro ⟨b, a, h⟩
      cases b with
      | nil => exact Or.inl ⟨a, by simpa using h.symm⟩
      | cons z b =>
        simp only [List.cons_append] at h
        injection h with h1 h2
        exact Or.inr ⟨b, a, h2⟩

theorem occurrences_count (a : Atom) (l : List Atom) : occurrences a l = l.count a := by
  unfold occurrences
  rw [List.count_eq_length_filter]
  rfl

theorem isSubBag_iff (xs ys : List Atom) :
    isSubBag xs ys = true ↔ ∀ a, occurrences a xs ≤ occurrences a ys := by
  unfold isSubBag
  rw [List.all_eq_true]
  constructor
  · intro h a
    rw [occurrences_count, occurrences_count]
    by_cases ha : a ∈ xs
    · exact of_decide_eq_true (h a ha)
    · rw [List.count_eq_zero_of_not_mem ha]
      exact Nat.zero_le _
  · intro h a _
    have := h a
    rw [occurrences_count, occurrences_count] at this
    exact decide_eq_true this

/-- What it means for one container to contain another: as consecutive members in order, or with all its
multiplicities. -/
def ContainsAll : Card → List Atom → List Atom → Prop
  | .ordered, big, small => Consecutive small big
  | _, big, small => ∀ a, occurrences a small ≤ occurrences a big

/-- What `contains` tests: whether its *second* operand contains the first.  (The operator is documented
the other way round, see `contains_is_reversed`.) -/
theorem contains_tests_reverse_partial (st : State) (e f : Expr) (v w : Value) (card : Card) (bt : BaseType)
    (xs ys : List Atom) (he : eval st e = .ok v) (hf : eval st f = .ok w) (hv : IsContainer v card bt xs)
    (hw : IsContainer w card bt ys) (hd : bt ≠ .duration) (hx : xs ≠ []) (hy : ys ≠ []) :
    ∃ b, eval st (.node .contains [e, f]) = .ok (boolV (some b)) ∧ (b = true ↔ ContainsAll card ys xs) := by
  rw [eval_two (by simp) he hf]
  cases hv with
  | ordered =>
    cases hw with
    | ordered =>
      refine ⟨isInfix xs ys, ?_, isInfix_iff xs ys⟩
      simp [applyOp, two, bind, Except.bind, evalContains, Value.bt, Value.card, checkBaseTypes, checkBaseTypesFrom,
        checkCardinalities, checkCardinalitiesFrom, Value.isNull, hx, hy, hd]
      rfl
  | multiple =>
    cases hw with
    | multiple =>
      refine ⟨isSubBag xs ys, ?_, isSubBag_iff xs ys⟩
      simp [applyOp, two, bind, Except.bind, evalContains, Value.bt, Value.card, checkBaseTypes, checkBaseTypesFrom,
        checkCardinalities, checkCardinalitiesFrom, Value.isNull, hx, hy, hd]
      rfl

/-- The container of integers with the given texts. -/
def intContainer (op : Op) (ts : List Str) : Expr := .node op (ts.map fun t => .leaf (.baseValue .integer t))

/-- `contains` with a container of two and a container of one of them is false, the other way round
true. -/
theorem contains_is_reversed (st : State) :
    eval st (.node .contains [intContainer .ordered [['1'], ['2']], intContainer .ordered [['1']]]) =
      .ok (boolV (some false)) ∧
    ContainsAll .ordered [.int 1, .int 2] [.int 1] ∧
    eval st (.node .contains [intContainer .ordered [['1']], intContainer .ordered [['1'], ['2']]]) =
      .ok (boolV (some true)) ∧
    ¬ ContainsAll .ordered [.int 1] [.int 1, .int 2] := by
  refine ⟨rfl, ⟨[], [.int 2], rfl⟩, rfl, ?_⟩
  rintro ⟨b, a, h⟩
  have := congrArg List.length h
  simp at this
  omega

/-- `match` of two values of the same type, neither NULL: are they the same? -/
def SameValue : Value → Value → Prop
  | .single _ x, .single _ y => x = y
  | .ordered _ xs, .ordered _ ys => xs = ys
  | .multiple _ xs, .multiple _ ys => ∀ a, occurrences a xs = occurrences a ys
  | _, _ => False

theorem match_tests_equality (st : State) (e f : Expr) (v w : Value) (bt : BaseType)
    (he : eval st e = .ok v) (hf : eval st f = .ok w) (hc : v.card = w.card) (hr : v.card ≠ some .record)
    (hv : v.bt = some bt) (hw : w.bt = some bt) (hd : bt ≠ .duration)
    (hvn : v.isNull = false) (hwn : w.isNull = false) :
    ∃ b, eval st (.node .match [e, f]) = .ok (boolV (some b)) ∧ (b = true ↔ SameValue v w) := by
  rw [eval_two (by simp) he hf]
  have h1 : checkCardinalities [v.card, w.card] = .ok w.card := by
    rw [hc]
    cases w.card <;> simp [checkCardinalities, checkCardinalitiesFrom]
  have h2 : checkBaseTypes [v.bt, w.bt] = .ok (some bt) := by
    rw [hv, hw]
    simp [checkBaseTypes, checkBaseTypesFrom]
  simp only [applyOp, two, bind, Except.bind, valueEq, h1, h2]
  rw [if_neg (by simp [hd]), hvn, hwn, if_neg (by simp)]
  cases v with
  | unknown => cases hv
  | container _ => cases hvn
  | single b x =>
    cases w <;> simp [Value.card] at hc
    exact ⟨_, rfl, by simp [SameValue]⟩
  | ordered b x =>
    cases w <;> simp [Value.card] at hc
    exact ⟨_, rfl, by simp [SameValue]⟩
  | multiple b xs =>
    cases w <;> simp [Value.card] at hc
    rename_i b' ys
    refine ⟨_, rfl, ?_⟩
    simp only [SameValue, occurrences_count]
    rw [List.isPerm_iff, List.perm_iff_count]
  | record fs => exact absurd rfl hr

/-! ## Substrings -/

theorem isSubstr_iff (a : Str) : ∀ b : Str, isSubstr a b = true ↔ Consecutive a b
  | [] => by
    simp only [isSubstr, List.isEmpty_iff, Consecutive]
    constructor
    · rintro rfl; exact ⟨[], [], rfl⟩
    · rintro ⟨b, c, h⟩
      simp at h
      exact h.2.1
  | y :: ys => by
    rw [isSubstr, Bool.or_eq_true, isSubstr_iff a ys, List.isPrefixOf_iff_prefix]
    constructor
    · rintro (⟨t, h⟩ | ⟨b, c, h⟩)
      · exact ⟨[], t, by simpa using h.symm⟩
      · exact ⟨y :: b, c, by rw [h]; rfl⟩
    · rintro ⟨b, c, h⟩
      cases b with
      | nil => exact Or.inl ⟨c, by simpa using h.symm⟩
      | cons z b =>
        simp only [List.cons_append] at h
        injection h with h1 h2
        exact Or.inr ⟨b, c, h2⟩

/-- A string value. -/
def stringV (s : Str) : Value := .single (some .string) (some (.str s))

/-- `substring`: is the first string part of the second? -/
theorem substring_tests (st : State) (e f : Expr) (x y : Str) (he : eval st e = .ok (stringV x))
    (hf : eval st f = .ok (stringV y)) :
    ∃ b, eval st (.node (.substring true) [e, f]) = .ok (boolV (some b)) ∧ (b = true ↔ Consecutive x y) := by
  rw [eval_two (by simp) he hf]
  exact ⟨isSubstr x y, rfl, isSubstr_iff x y⟩

/-- `stringMatch`: are the strings equal? -/
theorem stringMatch_tests (st : State) (e f : Expr) (x y : Str) (he : eval st e = .ok (stringV x))
    (hf : eval st f = .ok (stringV y)) :
    ∃ b, eval st (.node (.stringMatch true false) [e, f]) = .ok (boolV (some b)) ∧ (b = true ↔ x = y) := by
  rw [eval_two (by simp) he hf]
  exact ⟨decide (x = y), rfl, by simp⟩

/-- `stringMatch` with its `substring` attribute tests whether the first string is part of the second; the
QTI specification asks whether the first contains the second (see `substring_match_is_reversed`). -/
theorem substring_match_tests_reverse_partial (st : State) (e f : Expr) (x y : Str)
    (he : eval st e = .ok (stringV x)) (hf : eval st f = .ok (stringV y)) :
    ∃ b, eval st (.node (.stringMatch true true) [e, f]) = .ok (boolV (some b)) ∧ (b = true ↔ Consecutive x y) := by
  rw [eval_two (by simp) he hf]
  exact ⟨isSubstr x y, rfl, isSubstr_iff x y⟩

theorem substring_match_is_reversed (st : State) :
    eval st (.node (.stringMatch true true)
      [.leaf (.baseValue .string ['a', 'b']), .leaf (.baseValue .string ['a'])]) = .ok (boolV (some false)) ∧
    Consecutive ['a'] ['a', 'b'] := ⟨rfl, [], ['b'], rfl⟩

/-! ## The hypotheses are met -/

/-- A session with an ordered and a multiple container. -/
def containerSession : State :=
  ⟨[(['O'], .ordered (some .integer) [.int 1, .int 2, .int 1]),
    (['M'], .multiple (some .identifier) [.str ['a'], .str ['a'], .str ['b']])], []⟩

theorem containerSession_good : GoodState containerSession := by
  intro p hp
  simp only [containerSession, List.mem_cons, List.not_mem_nil, or_false] at hp
  rcases hp with rfl | rfl
  · refine .ordered ?_
    intro a ha
    simp at ha
    rcases ha with rfl | rfl | rfl <;> exact ⟨_, rfl, .integer _, by simp [InRange, Fits]⟩
  · refine .multiple ?_
    intro a ha
    simp at ha
    rcases ha with rfl | rfl
    · exact ⟨_, rfl, .identifier _ (by decide +kernel), trivial⟩
    · exact ⟨_, rfl, .identifier _ (by decide +kernel), trivial⟩

example : Pointwise (fun e v => eval containerSession e = .ok v)
    [.leaf (.variable ['O']), .leaf .null, .leaf (.baseValue .integer ['7'])]
    [.ordered (some .integer) [.int 1, .int 2, .int 1], .unknown, .single (some .integer) (some (.int 7))] ∧
    (∀ v ∈ [Value.ordered (some .integer) [.int 1, .int 2, .int 1], .unknown,
      .single (some .integer) (some (.int 7))], Operand .ordered .integer v) := by
  refine ⟨.cons rfl (.cons rfl (.cons rfl .nil)), ?_⟩
  intro v hv
  simp at hv
  rcases hv with rfl | rfl | rfl <;> refine ⟨by simp [Value.bt], by simp [Value.card], ?_⟩ <;>
    intro a ha <;> simp [members] at ha
  · rcases ha with rfl | rfl | rfl <;> simp [InRange, Fits]
  · subst ha; simp [InRange, Fits]

example : eval containerSession (.node .delete [.leaf (.baseValue .integer ['1']), .leaf (.variable ['O'])]) =
      .ok (.ordered (some .integer) [.int 2]) ∧
    eval containerSession (.node (.index (some 2)) [.leaf (.variable ['O'])]) =
      .ok (.single (some .integer) (some (.int 2))) ∧
    eval containerSession (.node .member [.leaf (.baseValue .identifier ['b']), .leaf (.variable ['M'])]) =
      .ok (boolV (some true)) := by
  refine ⟨rfl, rfl, by decide +kernel⟩

end Verif.Props
