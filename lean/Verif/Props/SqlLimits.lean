import Verif.Props.SqlFilter

/-!
# Filters the SQL store gets wrong or cannot write
-/

namespace Verif.Props

open Verif Verif.OData Verif.OData.Sql Verif.Spec.Sql

namespace SQ

/-- A table with a column `A`. -/
def columnA : Coll :=
  { props := [(['A'], .simple)], mangled := fun n => if n = [['A']] then some ['A'] else none, table := ['T'],
    qualify := false, lite := false }

/-- An entity with a value for the property `A`. -/
def holding (v : Eval.SVal) : Eval.World :=
  fun _ => { set := 0, typeName := [], key := none, data := [(['A'], .simple v)], nav := [] }

theorem holding_row {v : Eval.SVal} {c : Cell} (h : Stored v c) : RowOf columnA (holding v) 0 (fun _ => c) := by
  refine ⟨fun _ => rfl, fun n q hq => ⟨v, ?_, h⟩⟩
  have hn : n = ['A'] := by
    apply Classical.byContradiction
    intro hn
    have : ¬ [n] = [['A']] := by simpa using hn
    simp [columnA, this] at hq
  subst hn
  rfl

end SQ

/-- **C196.**  A comparison of a property with `null` selects no row at all, whatever is stored. -/
theorem sql_null_never {lv : Op → Nat} (hP : Precedences lv) (C : Coll) {op : Oper} (hc : op ∈ comparing) (n : Str)
    {q : List Piece} {ps : List Param} (h : filterClause C (.binary op [.prop n, .lit .null]) = .ok (q, ps)) (row : Str → Cell) :
    LeavesOut lv row q ps ∧ ¬ Selects lv row q ps := by
  have ho : Orderly (.binary op [.prop n, .lit .null]) := by
    refine .binary (.prop _) (.lit _) ?_
    cases op <;> simp [comparing] at hc <;> rfl
  obtain ⟨t, t', hm, hr, hread⟩ := sql_reads_partial hP C ho h
  have hop : ∃ o, opOf op = some o ∧ comparison o = true := by
    cases op <;> simp [comparing] at hc <;> exact ⟨_, rfl, rfl⟩
  obtain ⟨o, hop, hco⟩ := hop
  obtain ⟨x, y, rfl, m1, m2⟩ := SQ.bin_meant hop hm
  have left : LeavesOut lv row q ps := by
    refine ⟨t', hread, .unknown, ((SQ.regrouped_same row hr).2 _).2 (.unknownRight hco ?_), by decide⟩
    cases m2 with
    | lit hp =>
      cases hp
      exact .param .null
  exact ⟨left, fun hs => selects_not_left hs left⟩

/-- **C195 (what fails).**  An entity without a value for `A` meets `A eq null`, and its row is left out. -/
theorem sql_null_refuted (E : Eval.Env) :
    ∃ C W row e q ps, RowOf C W 0 row ∧ filterClause C e = .ok (q, ps) ∧ TrueOf E W 0 e ∧
      ∀ lv : Op → Nat, Precedences lv → ¬ Selects lv row q ps :=
  ⟨SQ.columnA, SQ.holding (.null (some .string)), fun _ => .null, .binary .eq [.prop ['A'], .lit .null],
    [.lp, .name ['A'], .op .eq, .hole, .rp], [.none], SQ.holding_row (.null _), rfl, rfl,
    fun _ hP => (sql_null_never hP SQ.columnA (op := .eq) (by decide) ['A'] rfl _).2⟩

/-- **C195 (what fails).**  `x` does not begin with `%`, but the row of an entity with the value `x` is selected by
`startswith(A,'%')`. -/
theorem sql_wildcard_refuted (E : Eval.Env) :
    ∃ C W row e q ps, RowOf C W 0 row ∧ NoNulls W 0 e ∧ filterClause C e = .ok (q, ps) ∧ FalseOf E W 0 e ∧
      ∀ lv : Op → Nat, Precedences lv → Selects lv row q ps := by
  refine ⟨SQ.columnA, SQ.holding (.string ['x']), fun _ => .text ['x'], .call .startswith [.prop ['A'], .lit (.string ['%'])],
    _, _, SQ.holding_row (.string _), .call (.prop rfl rfl) (.lit _), rfl, rfl, fun lv hP => ?_⟩
  obtain ⟨t, t', hm, hr, hread⟩ := sql_reads_partial hP SQ.columnA
    (e := .call .startswith [.prop ['A'], .lit (.string ['%'])])
    (.startswith (.prop _) (.lit _) (by simp [shapeOf]) (by simp [shapeOf]) (by simp [shapeOf])) rfl
  refine ⟨t', hread, ((SQ.regrouped_same _ hr).2 _).2 ?_⟩
  cases hm with
  | function hf => exact absurd hf (by simp [function])
  | startswith m1 m2 =>
    cases m1 with
    | prop _ =>
      cases m2 with
      | lit hp =>
        cases hp
        refine .like (.column _) (.concat (.param (.text _)) .percent) ?_
        exact .any ['x'] (SQ.like_any [])

/-- **C195 (what fails).**  `b` is found in `ab` after one character, but the row is left out by `indexof(A,'b') eq 1`: the
database is asked for the place of `ab` in `b`. -/
theorem sql_indexof_refuted (E : Eval.Env) :
    ∃ C W row e q ps, RowOf C W 0 row ∧ NoNulls W 0 e ∧ filterClause C e = .ok (q, ps) ∧ TrueOf E W 0 e ∧
      ∀ lv : Op → Nat, Precedences lv → LeavesOut lv row q ps := by
  refine ⟨SQ.columnA, SQ.holding (.string ['a', 'b']), fun _ => .text ['a', 'b'],
    .binary .eq [.call .indexof [.prop ['A'], .lit (.string ['b'])], .lit (.int32 1)],
    _, _, SQ.holding_row (.string _), .binary (.call (.prop rfl rfl) (.lit _)) (.lit _), rfl, ?_, fun lv hP => ?_⟩
  · unfold TrueOf
    simp [Eval.eval, Eval.evalList, Eval.property, SQ.holding, Eval.lookup, Eval.ofLit, Eval.method, Eval.promoteParameter,
      Eval.canCast, Eval.SVal.ty, Eval.SVal.cast, Eval.twoStrings, Eval.find, Eval.setInt32, Eval.binary, Eval.equal,
      Eval.promoteOperands, Eval.promoteTypes, Eval.arithTypes, Eval.eqNum, Eval.cmpNum, bind, Except.bind, Except.map,
      List.isPrefixOf]
  obtain ⟨t, t', hm, hr, hread⟩ := sql_reads_partial hP SQ.columnA
    (e := .binary .eq [.call .indexof [.prop ['A'], .lit (.string ['b'])], .lit (.int32 1)])
    (.binary (.indexof (.prop _) (.lit _)) (.lit _) rfl) rfl
  refine ⟨t', hread, .no, ((SQ.regrouped_same _ hr).2 _).2 ?_, by decide⟩
  obtain ⟨x, y, rfl, m1, m2⟩ := SQ.bin_meant (o := .eq) rfl hm
  cases m1 with
  | function hf => exact absurd hf (by simp [function])
  | indexof a b =>
    cases a with
    | prop _ =>
      cases b with
      | lit hp =>
        cases hp
        cases m2 with
        | lit hp =>
          cases hp
          refine .no rfl (.position (.column _) (.param (.text _)) (.absent ?_)) (.param (.int _)) (.int _ _) (by simp [Compares])
          intro a b h
          have := congrArg List.length h
          simp at this
          omega

/-- The filter `(5 sub (3 sub 1)) eq 3`. -/
def rightFirst : Expr :=
  .binary .eq [.binary .sub [.lit (.int32 5), .binary .sub [.lit (.int32 3), .lit (.int32 1)]], .lit (.int32 3)]

/-- The filter `((5 sub 3) sub 1) eq 3`. -/
def leftFirst : Expr :=
  .binary .eq [.binary .sub [.binary .sub [.lit (.int32 5), .lit (.int32 3)], .lit (.int32 1)], .lit (.int32 3)]

/-- **C194 (what fails).**  The same text with the same parameters is written for two filters, one of which is true of every
entity and the other one of none: the brackets of `5 sub (3 sub 1)` are lost. -/
theorem sql_reads_refuted (C : Coll) (E : Eval.Env) (W : Eval.World) :
    (∃ out, filterClause C rightFirst = .ok out ∧ filterClause C leftFirst = .ok out) ∧
    (∀ id, TrueOf E W id rightFirst) ∧ ∀ id, FalseOf E W id leftFirst := by
  refine ⟨⟨_, rfl, rfl⟩, fun id => ?_, fun id => ?_⟩
  · rfl
  · rfl

end Verif.Props
