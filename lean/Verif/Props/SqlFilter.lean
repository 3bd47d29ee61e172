import Verif.Props.SqlReads
import Verif.Spec.SqlMeaning

/-!
# The rows a filter selects
-/

namespace Verif.Props

open Verif Verif.OData Verif.OData.Sql Verif.Spec.Sql

namespace SQ

theorem truth_and_assoc (a b c : Truth) : (a.and b).and c = a.and (b.and c) := by cases a <;> cases b <;> cases c <;> rfl

theorem truth_or_assoc (a b c : Truth) : (a.or b).or c = a.or (b.or c) := by cases a <;> cases b <;> cases c <;> rfl

/-- Regrouping changes no value and no truth. -/
theorem regrouped_same (row : Str → Cell) {s t : Tree} (h : Regrouped s t) :
    (∀ x, Val row s x ↔ Val row t x) ∧ (∀ u, Holds row s u ↔ Holds row t u) := by
  induction h with
  | refl => exact ⟨fun _ => .rfl, fun _ => .rfl⟩
  | symm _ ih => exact ⟨fun x => (ih.1 x).symm, fun x => (ih.2 x).symm⟩
  | trans _ _ ih1 ih2 => exact ⟨fun x => (ih1.1 x).trans (ih2.1 x), fun x => (ih1.2 x).trans (ih2.2 x)⟩
  | bin _ _ ih1 ih2 =>
    refine ⟨fun x => ⟨fun h => ?_, fun h => ?_⟩, fun x => ⟨fun h => ?_, fun h => ?_⟩⟩
    · cases h with
      | concat h1 h2 => exact .concat ((ih1.1 _).1 h1) ((ih2.1 _).1 h2)
    · cases h with
      | concat h1 h2 => exact .concat ((ih1.1 _).2 h1) ((ih2.1 _).2 h2)
    · cases h with
      | unknownLeft h h1 => exact .unknownLeft h ((ih1.1 _).1 h1)
      | unknownRight h h1 => exact .unknownRight h ((ih2.1 _).1 h1)
      | yes h h1 h2 h3 h4 => exact .yes h ((ih1.1 _).1 h1) ((ih2.1 _).1 h2) h3 h4
      | no h h1 h2 h3 h4 => exact .no h ((ih1.1 _).1 h1) ((ih2.1 _).1 h2) h3 h4
      | like h1 h2 h3 => exact .like ((ih1.1 _).1 h1) ((ih2.1 _).1 h2) h3
      | unlike h1 h2 h3 => exact .unlike ((ih1.1 _).1 h1) ((ih2.1 _).1 h2) h3
      | and h1 h2 => exact .and ((ih1.2 _).1 h1) ((ih2.2 _).1 h2)
      | or h1 h2 => exact .or ((ih1.2 _).1 h1) ((ih2.2 _).1 h2)
    · cases h with
      | unknownLeft h h1 => exact .unknownLeft h ((ih1.1 _).2 h1)
      | unknownRight h h1 => exact .unknownRight h ((ih2.1 _).2 h1)
      | yes h h1 h2 h3 h4 => exact .yes h ((ih1.1 _).2 h1) ((ih2.1 _).2 h2) h3 h4
      | no h h1 h2 h3 h4 => exact .no h ((ih1.1 _).2 h1) ((ih2.1 _).2 h2) h3 h4
      | like h1 h2 h3 => exact .like ((ih1.1 _).2 h1) ((ih2.1 _).2 h2) h3
      | unlike h1 h2 h3 => exact .unlike ((ih1.1 _).2 h1) ((ih2.1 _).2 h2) h3
      | and h1 h2 => exact .and ((ih1.2 _).2 h1) ((ih2.2 _).2 h2)
      | or h1 h2 => exact .or ((ih1.2 _).2 h1) ((ih2.2 _).2 h2)
  | call1 _ _ =>
    refine ⟨fun x => ⟨fun h => ?_, fun h => ?_⟩, fun x => ⟨fun h => ?_, fun h => ?_⟩⟩ <;> cases h
  | call2 _ _ ih1 ih2 =>
    refine ⟨fun x => ⟨fun h => ?_, fun h => ?_⟩, fun x => ⟨fun h => ?_, fun h => ?_⟩⟩
    · cases h with
      | position h1 h2 h3 => exact .position ((ih1.1 _).1 h1) ((ih2.1 _).1 h2) h3
    · cases h with
      | position h1 h2 h3 => exact .position ((ih1.1 _).2 h1) ((ih2.1 _).2 h2) h3
    · cases h
    · cases h
  | @assoc o a b c hr =>
    cases o <;> simp only [regroups] at hr <;> try contradiction
    · refine ⟨fun x => ⟨fun h => ?_, fun h => ?_⟩, fun x => ⟨fun h => ?_, fun h => ?_⟩⟩
      · cases h
      · cases h
      · cases h with
        | unknownLeft h _ => cases h
        | unknownRight h _ => cases h
        | yes h => cases h
        | no h => cases h
        | or h1 h3 =>
          cases h1 with
          | unknownLeft h _ => cases h
          | unknownRight h _ => cases h
          | yes h => cases h
          | no h => cases h
          | or h1 h2 => rw [truth_or_assoc]; exact .or h1 (.or h2 h3)
      · cases h with
        | unknownLeft h _ => cases h
        | unknownRight h _ => cases h
        | yes h => cases h
        | no h => cases h
        | or h1 h3 =>
          cases h3 with
          | unknownLeft h _ => cases h
          | unknownRight h _ => cases h
          | yes h => cases h
          | no h => cases h
          | or h2 h3 => rw [← truth_or_assoc]; exact .or (.or h1 h2) h3
    · refine ⟨fun x => ⟨fun h => ?_, fun h => ?_⟩, fun x => ⟨fun h => ?_, fun h => ?_⟩⟩
      · cases h
      · cases h
      · cases h with
        | unknownLeft h _ => cases h
        | unknownRight h _ => cases h
        | yes h => cases h
        | no h => cases h
        | and h1 h3 =>
          cases h1 with
          | unknownLeft h _ => cases h
          | unknownRight h _ => cases h
          | yes h => cases h
          | no h => cases h
          | and h1 h2 => rw [truth_and_assoc]; exact .and h1 (.and h2 h3)
      · cases h with
        | unknownLeft h _ => cases h
        | unknownRight h _ => cases h
        | yes h => cases h
        | no h => cases h
        | and h1 h3 =>
          cases h3 with
          | unknownLeft h _ => cases h
          | unknownRight h _ => cases h
          | yes h => cases h
          | no h => cases h
          | and h2 h3 => rw [← truth_and_assoc]; exact .and (.and h1 h2) h3
    · refine ⟨fun x => ⟨fun h => ?_, fun h => ?_⟩, fun x => ⟨fun h => ?_, fun h => ?_⟩⟩
      · cases h with
        | concat h1 h3 =>
          cases h1 with
          | concat h1 h2 => rw [List.append_assoc]; exact .concat h1 (.concat h2 h3)
      · cases h with
        | concat h1 h3 =>
          cases h3 with
          | concat h2 h3 => rw [← List.append_assoc]; exact .concat (.concat h1 h2) h3
      · cases h with
        | unknownLeft h _ => cases h
        | unknownRight h _ => cases h
        | yes h => cases h
        | no h => cases h
      · cases h with
        | unknownLeft h _ => cases h
        | unknownRight h _ => cases h
        | yes h => cases h
        | no h => cases h

/-! ## Comparing -/

theorem textLt_cmp (s t : Str) : (Eval.cmpStr s t = .lt ↔ TextLt s t) ∧ (Eval.cmpStr s t = .eq ↔ s = t) ∧
    (Eval.cmpStr s t = .gt ↔ TextLt t s) := by
  induction s generalizing t with
  | nil =>
    cases t with
    | nil =>
      refine ⟨⟨fun h => ?_, fun h => ?_⟩, ⟨fun h => rfl, fun h => rfl⟩, ⟨fun h => ?_, fun h => ?_⟩⟩ <;> cases h
    | cons d t =>
      refine ⟨⟨fun h => .nil _ _, fun h => rfl⟩, ⟨fun h => ?_, fun h => ?_⟩, ⟨fun h => ?_, fun h => ?_⟩⟩ <;> cases h
  | cons c s ih =>
    cases t with
    | nil =>
      refine ⟨⟨fun h => ?_, fun h => ?_⟩, ⟨fun h => ?_, fun h => ?_⟩, ⟨fun h => .nil _ _, fun h => rfl⟩⟩ <;> cases h
    | cons d t =>
      obtain ⟨i1, i2, i3⟩ := ih t
      rw [Eval.cmpStr]
      by_cases h1 : c.toNat < d.toNat
      · rw [if_pos h1]
        refine ⟨⟨fun h => .head h1, fun h => rfl⟩, ⟨fun h => ?_, fun h => ?_⟩, ⟨fun h => ?_, fun h => ?_⟩⟩
        · cases h
        · cases h; omega
        · cases h
        · cases h with
          | head h => omega
          | tail h => omega
      · rw [if_neg h1]
        by_cases h2 : c.toNat = d.toNat
        · rw [if_pos h2]
          have hcd : c = d := Char.toNat_inj.1 h2
          subst hcd
          refine ⟨⟨fun h => .tail (i1.1 h), fun h => ?_⟩, ⟨fun h => by rw [i2.1 h], fun h => ?_⟩,
            ⟨fun h => .tail (i3.1 h), fun h => ?_⟩⟩
          · cases h with
            | head h => omega
            | tail h => exact i1.2 h
          · exact i2.2 (List.cons.inj h).2
          · cases h with
            | head h => omega
            | tail h => exact i3.2 h
        · rw [if_neg h2]
          refine ⟨⟨fun h => ?_, fun h => ?_⟩, ⟨fun h => ?_, fun h => ?_⟩, ⟨fun h => .head (by omega), fun h => rfl⟩⟩
          · cases h
          · cases h with
            | head h => omega
            | tail h => omega
          · cases h
          · cases h; omega

/-- The outcome of a comparison by the order of the values. -/
def outcome (op : Oper) (r : Ordering) : Bool :=
  match op with
  | .eq => decide (r = .eq)
  | .ne => !decide (r = .eq)
  | op => Eval.relation op r

/-- The comparisons by the order of two values. -/
theorem compares_ordering {op : Oper} {o : Op} (ho : opOf op = some o) (hc : op ∈ comparing) {x y : Cell} {r : Ordering}
    (h1 : r = .lt ↔ CellLt x y) (h2 : r = .eq ↔ x = y) (h3 : r = .gt ↔ CellLt y x) :
    (outcome op r = true ↔ Compares o x y) := by
  have e1 : r = .lt ∨ r = .eq ∨ r = .gt := by cases r <;> simp
  cases op <;> simp [comparing] at hc <;> cases ho <;> simp only [Compares, ← h1, ← h2, ← h3, ne_eq] <;>
    rcases e1 with e | e | e <;> subst e <;> simp [outcome, Eval.relation]

/-- Numbers are compared as numbers. -/
theorem compare_int (m n : Int) : (compare m n = .lt ↔ CellLt (.int m) (.int n)) ∧ (compare m n = .eq ↔ Cell.int m = .int n) ∧
    (compare m n = .gt ↔ CellLt (.int n) (.int m)) := by
  have lt : ∀ a b : Int, CellLt (.int a) (.int b) ↔ a < b := fun a b => ⟨fun h => by cases h; assumption, .int⟩
  refine ⟨?_, ?_, ?_⟩
  · rw [lt]; exact Int.compare_eq_lt
  · simp
  · rw [lt]; exact Int.compare_eq_gt

theorem compare_text (s t : Str) : (Eval.cmpStr s t = .lt ↔ CellLt (.text s) (.text t)) ∧
    (Eval.cmpStr s t = .eq ↔ Cell.text s = .text t) ∧ (Eval.cmpStr s t = .gt ↔ CellLt (.text t) (.text s)) := by
  have lt : ∀ a b : Str, CellLt (.text a) (.text b) ↔ TextLt a b := fun a b => ⟨fun h => by cases h; assumption, .text⟩
  obtain ⟨h1, h2, h3⟩ := textLt_cmp s t
  refine ⟨?_, ?_, ?_⟩
  · rw [lt]; exact h1
  · simpa using h2
  · rw [lt]; exact h3

theorem binary_int32 (E W) {op : Oper} (hc : op ∈ comparing) (m n : Int) :
    Eval.binary E W op (.simple (.int32 m)) (.simple (.int32 n)) = .ok (.simple (.bool (outcome op (compare m n)))) := by
  cases op <;> simp [comparing] at hc <;>
    simp [Eval.binary, Eval.relate, Eval.equal, Eval.promoteOperands, Eval.promoteTypes, Eval.SVal.ty, Eval.SVal.cast,
      Eval.arithTypes, Eval.cmpNum, Eval.eqNum, outcome, Except.map, bind, Except.bind]

theorem binary_int64 (E W) {op : Oper} (hc : op ∈ comparing) (m n : Int) :
    Eval.binary E W op (.simple (.int64 m)) (.simple (.int64 n)) = .ok (.simple (.bool (outcome op (compare m n)))) := by
  cases op <;> simp [comparing] at hc <;>
    simp [Eval.binary, Eval.relate, Eval.equal, Eval.promoteOperands, Eval.promoteTypes, Eval.SVal.ty, Eval.SVal.cast,
      Eval.arithTypes, Eval.cmpNum, Eval.eqNum, outcome, Except.map, bind, Except.bind]

theorem binary_int32_int64 (E W) {op : Oper} (hc : op ∈ comparing) (m n : Int) {x}
    (h : Eval.binary E W op (.simple (.int32 m)) (.simple (.int64 n)) = .ok x) : x = .simple (.bool (outcome op (compare m n))) := by
  by_cases hr : m < -9223372036854775808 ∨ 9223372036854775807 < m <;> cases op <;> simp [comparing] at hc <;>
    simp [Eval.binary, Eval.relate, Eval.equal, Eval.promoteOperands, Eval.promoteTypes, Eval.SVal.ty, Eval.SVal.cast,
      Eval.arithTypes, Eval.cmpNum, Eval.eqNum, Except.map, bind, Except.bind, Eval.numericTypes, Eval.SVal.int,
      Eval.setInteger, Eval.setInt64, hr] at h <;> rw [← h] <;> simp [outcome]

theorem binary_int64_int32 (E W) {op : Oper} (hc : op ∈ comparing) (m n : Int) {x}
    (h : Eval.binary E W op (.simple (.int64 m)) (.simple (.int32 n)) = .ok x) : x = .simple (.bool (outcome op (compare m n))) := by
  by_cases hr : n < -9223372036854775808 ∨ 9223372036854775807 < n <;> cases op <;> simp [comparing] at hc <;>
    simp [Eval.binary, Eval.relate, Eval.equal, Eval.promoteOperands, Eval.promoteTypes, Eval.SVal.ty, Eval.SVal.cast,
      Eval.arithTypes, Eval.cmpNum, Eval.eqNum, Except.map, bind, Except.bind, Eval.numericTypes, Eval.SVal.int,
      Eval.setInteger, Eval.setInt64, hr] at h <;> rw [← h] <;> simp [outcome]

/-- Numbers and texts are not compared. -/
theorem binary_mixed (E W) {op : Oper} (hc : op ∈ comparing) {v w : Eval.SVal} {a b : Eval.Ty} (hv : v.ty = some a) (hw : w.ty = some b)
    (hne : a ≠ b) (hn : a ∉ Eval.numericTypes ∨ b ∉ Eval.numericTypes) {x}
    (h : Eval.binary E W op (.simple v) (.simple w) = .ok x) : False := by
  cases op <;> simp [comparing] at hc <;>
    simp [Eval.binary, Eval.relate, Eval.equal, Eval.promoteOperands, Eval.promoteTypes, hv, hw, hne, hn,
      Except.map, bind, Except.bind] at h

theorem binary_string (E W) {op : Oper} (hc : op ∈ comparing) (s t : Str) :
    Eval.binary E W op (.simple (.string s)) (.simple (.string t)) = .ok (.simple (.bool (outcome op (Eval.cmpStr s t)))) := by
  cases op <;> simp [comparing] at hc <;>
    simp [Eval.binary, Eval.relate, Eval.equal, Eval.promoteOperands, Eval.promoteTypes, Eval.SVal.ty,
      Eval.arithTypes, Eval.cmpRaw, Eval.eqRaw, outcome, Except.map, bind, Except.bind] <;> congr

/-- A comparison that `Evaluate` decides says what SQL's says. -/
theorem cmp_holds (E W) {op : Oper} {o : Op} (ho : opOf op = some o) (hc : op ∈ comparing) {v w : Eval.SVal} {x y : Cell}
    (hv : Stored v x) (hw : Stored w y) (nv : v.isNull = false) (nw : w.isNull = false) {z : Eval.Value}
    (h : Eval.binary E W op (.simple v) (.simple w) = .ok z) :
    Comparable x y ∧ ∃ b, z = .simple (.bool b) ∧ (b = true ↔ Compares o x y) := by
  have ints : ∀ m n, z = .simple (.bool (outcome op (compare m n))) →
      Comparable (.int m) (.int n) ∧ ∃ b, z = .simple (.bool b) ∧ (b = true ↔ Compares o (.int m) (.int n)) := by
    intro m n he
    obtain ⟨h1, h2, h3⟩ := compare_int m n
    exact ⟨.int m n, _, he, compares_ordering ho hc h1 h2 h3⟩
  cases hv with
  | null => cases nv
  | int32 m =>
    cases hw with
    | null => cases nw
    | int32 n => rw [binary_int32 E W hc] at h; exact ints m n (Except.ok.inj h).symm
    | int64 n => exact ints m n (binary_int32_int64 E W hc m n h)
    | string t => exact (binary_mixed E W hc rfl rfl (by decide) (by decide) h).elim
  | int64 m =>
    cases hw with
    | null => cases nw
    | int32 n => exact ints m n (binary_int64_int32 E W hc m n h)
    | int64 n => rw [binary_int64 E W hc] at h; exact ints m n (Except.ok.inj h).symm
    | string t => exact (binary_mixed E W hc rfl rfl (by decide) (by decide) h).elim
  | string s =>
    cases hw with
    | null => cases nw
    | int32 n => exact (binary_mixed E W hc rfl rfl (by decide) (by decide) h).elim
    | int64 n => exact (binary_mixed E W hc rfl rfl (by decide) (by decide) h).elim
    | string t =>
      obtain ⟨h1, h2, h3⟩ := compare_text s t
      rw [binary_string E W hc] at h
      exact ⟨.text s t, _, (Except.ok.inj h).symm, compares_ordering ho hc h1 h2 h3⟩

/-! ## `LIKE` -/

theorem like_mild {p t q : Str} (hp : Mild p) : Like t q → Like (p ++ t) (p ++ q) := by
  intro h
  induction p with
  | nil => exact h
  | cons c p ih =>
    exact .char (hp c (by simp)).1 (hp c (by simp)).2 (ih (fun d hd => hp d (by simp [hd])))

theorem like_mild_inv {p q s : Str} (hp : Mild p) (h : Like s (p ++ q)) : ∃ t, s = p ++ t ∧ Like t q := by
  induction p generalizing s with
  | nil => exact ⟨s, rfl, h⟩
  | cons c p ih =>
    cases h with
    | any r h => exact absurd rfl (hp '%' (by simp)).1
    | one r h => exact absurd rfl (hp '_' (by simp)).2
    | char h1 h2 h =>
      obtain ⟨t, e, ht⟩ := ih (fun d hd => hp d (by simp [hd])) h
      exact ⟨t, by rw [e]; rfl, ht⟩

theorem like_any (s : Str) : Like s ['%'] := by
  have := Like.any s Like.nil
  simpa using this

theorem like_nil {s : Str} (h : Like s []) : s = [] := by cases h; rfl

theorem like_starts {p s : Str} (hp : Mild p) : Like s (p ++ ['%']) ↔ p.isPrefixOf s = true := by
  rw [List.isPrefixOf_iff_prefix]
  refine ⟨fun h => ?_, fun h => ?_⟩
  · obtain ⟨t, e, _⟩ := like_mild_inv hp h
    exact ⟨t, e.symm⟩
  · obtain ⟨t, e⟩ := h
    rw [← e]
    exact like_mild hp (like_any t)

theorem like_ends {p s : Str} (hp : Mild p) : Like s ('%' :: p) ↔ p.isSuffixOf s = true := by
  rw [List.isSuffixOf_iff_suffix]
  refine ⟨fun h => ?_, fun h => ?_⟩
  · cases h with
    | @any s' _ r h =>
      have h' : Like s' (p ++ []) := by rw [List.append_nil]; exact h
      obtain ⟨t, e, ht⟩ := like_mild_inv hp h'
      rw [like_nil ht, List.append_nil] at e
      exact ⟨r, by rw [e]⟩
    | char h1 h2 h => exact absurd rfl h1
  · obtain ⟨t, e⟩ := h
    rw [← e]
    refine .any t ?_
    have := like_mild hp Like.nil
    simpa using this

theorem find_infix (p s : Str) : (Eval.find p s).isSome = true ↔ ∃ a b, s = a ++ p ++ b := by
  induction s with
  | nil =>
    rw [Eval.find]
    by_cases h : p = []
    · rw [if_pos h]; exact ⟨fun _ => ⟨[], [], by simp [h]⟩, fun _ => rfl⟩
    · rw [if_neg h]
      refine ⟨fun h => by simp at h, fun ⟨a, b, e⟩ => ?_⟩
      have : p = [] := by
        cases a <;> cases p <;> simp at e ⊢
      exact absurd this h
  | cons c s ih =>
    rw [Eval.find]
    by_cases h : p.isPrefixOf (c :: s) = true
    · rw [if_pos h]
      obtain ⟨t, e⟩ := List.isPrefixOf_iff_prefix.1 h
      exact ⟨fun _ => ⟨[], t, by rw [← e]; rfl⟩, fun _ => rfl⟩
    · rw [if_neg h, Option.isSome_map, ih]
      refine ⟨fun ⟨a, b, e⟩ => ⟨c :: a, b, by rw [e]; rfl⟩, fun ⟨a, b, e⟩ => ?_⟩
      cases a with
      | nil => exact absurd (List.isPrefixOf_iff_prefix.2 ⟨b, by rw [e]; rfl⟩) h
      | cons d a =>
        simp only [List.cons_append, List.cons.injEq] at e
        exact ⟨a, b, e.2⟩

theorem like_within {p s : Str} (hp : Mild p) : Like s ('%' :: (p ++ ['%'])) ↔ (Eval.find p s).isSome = true := by
  rw [find_infix]
  refine ⟨fun h => ?_, fun ⟨a, b, e⟩ => ?_⟩
  · cases h with
    | any r h =>
      obtain ⟨t, e, _⟩ := like_mild_inv hp h
      exact ⟨r, t, by rw [e]; simp⟩
    | char h1 h2 h => exact absurd rfl h1
  · rw [e, List.append_assoc]
    exact .any a (like_mild hp (like_any b))

/-! ## Operands and filters -/

theorem plain_val {C : Coll} {E W id row} (hrow : RowOf C W id row) {a : Expr} (ha : Plain a) (hn : NoNulls W id a) {x : Tree}
    (hm : Meant C a x) {z} (hz : Eval.eval E W (some (.entity id)) a = .ok z) :
    ∃ v c, z = .simple v ∧ Stored v c ∧ v.isNull = false ∧ Val row x c := by
  cases ha with
  | int32 n =>
    cases hm with
    | lit hp =>
      cases hp
      rw [Eval.eval] at hz
      cases hz
      exact ⟨_, _, rfl, .int32 n, rfl, .param (.int n)⟩
  | int64 n =>
    cases hm with
    | lit hp =>
      cases hp
      rw [Eval.eval] at hz
      cases hz
      exact ⟨_, _, rfl, .int64 n, rfl, .param (.int n)⟩
  | string s =>
    cases hm with
    | lit hp =>
      cases hp
      rw [Eval.eval] at hz
      cases hz
      exact ⟨_, _, rfl, .string s, rfl, .param (.text s)⟩
  | prop n =>
    cases hm with
    | prop hq =>
      obtain ⟨v, hv, hs⟩ := hrow.2 n _ hq
      rw [Eval.eval, Eval.property] at hz
      simp only [hrow.1 n, hv] at hz
      cases hz
      cases hn with
      | prop h1 h2 =>
        rw [hv] at h1
        cases h1
        exact ⟨v, _, rfl, hs, h2, .column _⟩

theorem truth_and (a b : Bool) : (if (a && b) = true then Truth.yes else .no) =
    Truth.and (if a = true then .yes else .no) (if b = true then .yes else .no) := by
  cases a <;> cases b <;> rfl

theorem truth_or (a b : Bool) : (if (a || b) = true then Truth.yes else .no) =
    Truth.or (if a = true then .yes else .no) (if b = true then .yes else .no) := by
  cases a <;> cases b <;> rfl

/-- What a test of two texts gives. -/
theorem text_test {E : Eval.Env} {m : Meth} {f : Str → Str → Bool}
    (hm : ∀ x y, Eval.method E m [x, y] = (do
      let x ← Eval.promoteParameter E .string x
      let y ← Eval.promoteParameter E .string y
      Eval.twoStrings x y .boolean fun a b => .ok (.bool (f a b))))
    {v w : Eval.SVal} {c d : Cell} (hv : Stored v c) (hw : Stored w d) (nv : v.isNull = false) (nw : w.isNull = false) {z}
    (h : Eval.method E m [.simple v, .simple w] = .ok z) :
    ∃ a b, v = .string a ∧ c = .text a ∧ w = .string b ∧ d = .text b ∧ z = .simple (.bool (f a b)) := by
  rw [hm] at h
  have str : ∀ {v : Eval.SVal} {c : Cell} {x}, Stored v c → v.isNull = false →
      Eval.promoteParameter E .string (.simple v) = .ok x → ∃ a, v = .string a ∧ c = .text a ∧ x = .string a := by
    intro v c x hs hn he
    cases hs with
    | null => cases hn
    | int32 n => simp [Eval.promoteParameter, Eval.canCast, Eval.SVal.ty] at he
    | int64 n => simp [Eval.promoteParameter, Eval.canCast, Eval.SVal.ty] at he
    | string s =>
      simp [Eval.promoteParameter, Eval.canCast, Eval.SVal.ty, Eval.SVal.cast] at he
      exact ⟨s, rfl, rfl, he.symm⟩
  cases h1 : Eval.promoteParameter E .string (.simple v) with
  | error e => rw [h1] at h; cases h
  | ok x =>
    cases h2 : Eval.promoteParameter E .string (.simple w) with
    | error e => rw [h1, h2] at h; cases h
    | ok y =>
      obtain ⟨a, rfl, rfl, rfl⟩ := str hv nv h1
      obtain ⟨b, rfl, rfl, rfl⟩ := str hw nw h2
      rw [h1, h2] at h
      cases h
      exact ⟨a, b, rfl, rfl, rfl, rfl, rfl⟩

theorem eval_call2 {E W ctx m a b z} (h : Eval.eval E W ctx (.call m [a, b]) = .ok z) :
    ∃ v w, Eval.eval E W ctx a = .ok v ∧ Eval.eval E W ctx b = .ok w ∧ Eval.method E m [v, w] = .ok z := by
  rw [Eval.eval, Eval.evalList, Eval.evalList, Eval.evalList] at h
  cases h1 : Eval.eval E W ctx a with
  | error e => rw [h1] at h; cases h
  | ok v =>
    cases h2 : Eval.eval E W ctx b with
    | error e => rw [h1, h2] at h; cases h
    | ok w =>
      rw [h1, h2] at h
      exact ⟨v, w, rfl, rfl, h⟩

theorem eval_binary {E W ctx op a b z} (h1 : op ≠ .member) (h2 : op ≠ .cast) (h3 : op ≠ .isof)
    (h : Eval.eval E W ctx (.binary op [a, b]) = .ok z) :
    ∃ v w, Eval.eval E W ctx a = .ok v ∧ Eval.eval E W ctx b = .ok w ∧ Eval.binary E W op v w = .ok z := by
  rw [Eval.eval] at h
  cases e1 : Eval.eval E W ctx a with
  | error e => rw [e1] at h; cases h
  | ok v =>
    rw [e1] at h
    cases e2 : Eval.eval E W ctx b with
    | error e => cases op <;> simp only [e2] at h h1 h2 h3 <;> first | contradiction | (cases h)
    | ok w =>
      refine ⟨v, w, rfl, rfl, ?_⟩
      cases op <;> simp only [e2] at h h1 h2 h3 <;> first | contradiction | exact h

theorem bin_meant {C op o a b t} (ho : opOf op = some o) (h : Meant C (.binary op [a, b]) t) :
    ∃ x y, t = .bin o x y ∧ Meant C a x ∧ Meant C b y := by
  cases h with
  | member => cases ho
  | bin h1 h2 h3 =>
    rw [ho] at h1
    cases h1
    exact ⟨_, _, rfl, h2, h3⟩

/-- The truth of a simple filter is what `Evaluate` says. -/
theorem simple_holds {C : Coll} {E W id row} (hrow : RowOf C W id row) {e : Expr} (he : Simple e) (hn : NoNulls W id e) :
    ∀ {t : Tree}, Meant C e t → ∀ {z}, Eval.eval E W (some (.entity id)) e = .ok z →
    ∃ b, z = .simple (.bool b) ∧ Holds row t (if b = true then .yes else .no) := by
  induction he with
  | @starts a s ha hs =>
    intro t hm z hz
    obtain ⟨v, w, e1, e2, e3⟩ := eval_call2 hz
    cases hn with
    | call n1 n2 =>
    cases hm with
    | function hf => exact absurd hf (by simp [function])
    | startswith m1 m2 =>
      obtain ⟨v', c, rfl, sv, nv, hv⟩ := plain_val hrow ha n1 m1 e1
      obtain ⟨w', d, rfl, sw, nw, hw⟩ := plain_val hrow (.string s) n2 m2 e2
      obtain ⟨p, q, rfl, rfl, rfl, rfl, rfl⟩ := text_test (f := fun a b => b.isPrefixOf a) (fun _ _ => rfl) sv sw nv nw e3
      cases e2
      have hp := Val.concat hw (Val.percent (row := row))
      refine ⟨_, rfl, ?_⟩
      split
      · exact .like hv hp ((like_starts hs).2 ‹_›)
      · exact .unlike hv hp (fun h => ‹¬ _› ((like_starts hs).1 h))
  | @ends a s ha hs =>
    intro t hm z hz
    obtain ⟨v, w, e1, e2, e3⟩ := eval_call2 hz
    cases hn with
    | call n1 n2 =>
    cases hm with
    | function hf => exact absurd hf (by simp [function])
    | endswith m1 m2 =>
      obtain ⟨v', c, rfl, sv, nv, hv⟩ := plain_val hrow ha n1 m1 e1
      obtain ⟨w', d, rfl, sw, nw, hw⟩ := plain_val hrow (.string s) n2 m2 e2
      obtain ⟨p, q, rfl, rfl, rfl, rfl, rfl⟩ := text_test (f := fun a b => b.isSuffixOf a) (fun _ _ => rfl) sv sw nv nw e3
      cases e2
      have hp := Val.concat (Val.percent (row := row)) hw
      refine ⟨_, rfl, ?_⟩
      split
      · exact .like hv hp ((like_ends hs).2 ‹_›)
      · exact .unlike hv hp (fun h => ‹¬ _› ((like_ends hs).1 h))
  | @within a s ha hs =>
    intro t hm z hz
    obtain ⟨v, w, e1, e2, e3⟩ := eval_call2 hz
    cases hn with
    | call n1 n2 =>
    cases hm with
    | function hf => exact absurd hf (by simp [function])
    | substringof m1 m2 =>
      obtain ⟨v', c, rfl, sv, nv, hv⟩ := plain_val hrow (.string s) n1 m1 e1
      obtain ⟨w', d, rfl, sw, nw, hw⟩ := plain_val hrow ha n2 m2 e2
      obtain ⟨p, q, rfl, rfl, rfl, rfl, rfl⟩ := text_test (f := fun a b => (Eval.find a b).isSome) (fun _ _ => rfl) sv sw nv nw e3
      cases e1
      have hp := Val.concat (Val.percent (row := row)) (Val.concat hv (Val.percent (row := row)))
      refine ⟨_, rfl, ?_⟩
      split
      · exact .like hw hp ((like_within hs).2 ‹_›)
      · exact .unlike hw hp (fun h => ‹¬ _› ((like_within hs).1 h))
  | @cmp op a b hc ha hb =>
    intro t hm z hz
    have hne : op ≠ .member ∧ op ≠ .cast ∧ op ≠ .isof := by
      refine ⟨?_, ?_, ?_⟩ <;> intro h <;> subst h <;> simp [comparing] at hc
    obtain ⟨v, w, e1, e2, e3⟩ := eval_binary hne.1 hne.2.1 hne.2.2 hz
    have ho : ∃ o, opOf op = some o ∧ comparison o = true := by
      cases op <;> simp [comparing] at hc <;> exact ⟨_, rfl, rfl⟩
    obtain ⟨o, ho, hco⟩ := ho
    obtain ⟨x, y, rfl, m1, m2⟩ := bin_meant ho hm
    cases hn with
    | binary n1 n2 =>
      obtain ⟨v', c, rfl, sv, nv, hv⟩ := plain_val hrow ha n1 m1 e1
      obtain ⟨w', d, rfl, sw, nw, hw⟩ := plain_val hrow hb n2 m2 e2
      obtain ⟨k, r, rfl, hr⟩ := cmp_holds E W ho hc sv sw nv nw e3
      refine ⟨_, rfl, ?_⟩
      split
      · exact .yes hco hv hw k (hr.1 ‹_›)
      · exact .no hco hv hw k (fun h => ‹¬ _› (hr.2 h))
  | and h1 h2 ih1 ih2 =>
    intro t hm z hz
    obtain ⟨v, w, e1, e2, e3⟩ := eval_binary (by simp) (by simp) (by simp) hz
    obtain ⟨x, y, rfl, m1, m2⟩ := bin_meant rfl hm
    cases hn with
    | binary n1 n2 =>
      obtain ⟨p, rfl, hp⟩ := ih1 n1 m1 e1
      obtain ⟨q, rfl, hq⟩ := ih2 n2 m2 e2
      cases e3
      refine ⟨_, rfl, ?_⟩
      show Holds row _ (if (p && q) = true then _ else _)
      rw [truth_and]
      exact .and hp hq
  | or h1 h2 ih1 ih2 =>
    intro t hm z hz
    obtain ⟨v, w, e1, e2, e3⟩ := eval_binary (by simp) (by simp) (by simp) hz
    obtain ⟨x, y, rfl, m1, m2⟩ := bin_meant rfl hm
    cases hn with
    | binary n1 n2 =>
      obtain ⟨p, rfl, hp⟩ := ih1 n1 m1 e1
      obtain ⟨q, rfl, hq⟩ := ih2 n2 m2 e2
      cases e3
      refine ⟨_, rfl, ?_⟩
      show Holds row _ (if (p || q) = true then _ else _)
      rw [truth_or]
      exact .or hp hq

theorem plain_orderly {a : Expr} (h : Plain a) : Orderly a ∧ shapeOf a = .other := by
  cases h with
  | int32 n => exact ⟨.lit _, rfl⟩
  | int64 n => exact ⟨.lit _, rfl⟩
  | string n => exact ⟨.lit _, rfl⟩
  | prop n => exact ⟨.prop _, rfl⟩

theorem simple_orderly {e : Expr} (h : Simple e) : Orderly e := by
  induction h with
  | starts ha hs =>
    obtain ⟨o, s⟩ := plain_orderly ha
    exact .startswith o (.lit _) (by rw [s]; decide) (by simp [shapeOf]) (by simp [shapeOf])
  | ends ha hs =>
    obtain ⟨o, s⟩ := plain_orderly ha
    exact .endswith o (.lit _) (by rw [s]; decide) (by simp [shapeOf]) (by simp [shapeOf])
  | within ha hs =>
    obtain ⟨o, s⟩ := plain_orderly ha
    exact .substringof (.lit _) o (by rw [s]; decide) (by simp [shapeOf]) (by simp [shapeOf])
  | @cmp op a b hc ha hb =>
    obtain ⟨o1, s1⟩ := plain_orderly ha
    obtain ⟨o2, s2⟩ := plain_orderly hb
    refine .binary o1 o2 ?_
    rw [s1, s2]
    cases op <;> simp [comparing] at hc <;> rfl
  | and _ _ i1 i2 => exact .binary i1 i2 rfl
  | or _ _ i1 i2 => exact .binary i1 i2 rfl

end SQ

/-- A database that selects a row does not leave it out. -/
theorem selects_not_left {lv : Op → Nat} {row : Str → Cell} {q : List Piece} {ps : List Param} (h : Selects lv row q ps) :
    ¬ LeavesOut lv row q ps := by
  obtain ⟨t, ⟨n, hn⟩, hy⟩ := h
  rintro ⟨t', ⟨n', hn'⟩, u, hu, hne⟩
  have e := hn (max n n') (by omega)
  rw [hn' (max n n') (by omega)] at e
  cases e
  have val : ∀ {t x}, Val row t x → ∀ {y}, Val row t y → x = y := by
    intro t x h
    induction h with
    | param hp => intro y h; cases h with | param hq => cases hp <;> cases hq <;> rfl
    | column q => intro y h; cases h; rfl
    | percent => intro y h; cases h; rfl
    | concat _ _ i1 i2 =>
      intro y h
      cases h with
      | concat h1 h2 => cases i1 h1; cases i2 h2; rfl
    | position _ _ hp i1 i2 =>
      intro y h
      cases h with
      | position h1 h2 hq =>
        cases i1 h1
        cases i2 h2
        cases hp with
        | absent hp =>
          cases hq with
          | absent => rfl
          | first e => exact absurd e (hp _ _)
        | first e hp =>
          cases hq with
          | absent hq => exact absurd e (hq _ _)
          | first e' hq =>
            have h1 := hp _ _ e'
            have h2 := hq _ _ e
            rw [Nat.le_antisymm h1 h2]
  have uniq : ∀ {t u}, Holds row t u → ∀ {v}, Holds row t v → u = v := by
    intro t u h
    induction h with
    | unknownLeft hc hv =>
      intro v h
      cases h with
      | unknownLeft | unknownRight => rfl
      | yes _ h1 _ hk => cases val hv h1; cases hk
      | no _ h1 _ hk => cases val hv h1; cases hk
      | like | unlike | and | or => cases hc
    | unknownRight hc hv =>
      intro v h
      cases h with
      | unknownLeft | unknownRight => rfl
      | yes _ _ h1 hk => cases val hv h1; cases hk
      | no _ _ h1 hk => cases val hv h1; cases hk
      | like | unlike | and | or => cases hc
    | yes hc h1 h2 hk hp =>
      intro v h
      cases h with
      | unknownLeft _ h => cases val h1 h; cases hk
      | unknownRight _ h => cases val h2 h; cases hk
      | yes => rfl
      | no _ h1' h2' _ hn => cases val h1 h1'; cases val h2 h2'; exact absurd hp hn
      | like | unlike | and | or => cases hc
    | no hc h1 h2 hk hp =>
      intro v h
      cases h with
      | unknownLeft _ h => cases val h1 h; cases hk
      | unknownRight _ h => cases val h2 h; cases hk
      | yes _ h1' h2' _ hn => cases val h1 h1'; cases val h2 h2'; exact absurd hn hp
      | no => rfl
      | like | unlike | and | or => cases hc
    | like h1 h2 hl =>
      intro v h
      cases h with
      | unknownLeft h | unknownRight h | yes h | no h => cases h
      | like => rfl
      | unlike h1' h2' hn => cases val h1 h1'; cases val h2 h2'; exact absurd hl hn
    | unlike h1 h2 hl =>
      intro v h
      cases h with
      | unknownLeft h | unknownRight h | yes h | no h => cases h
      | unlike => rfl
      | like h1' h2' hn => cases val h1 h1'; cases val h2 h2'; exact absurd hn hl
    | and _ _ i1 i2 =>
      intro v h
      cases h with
      | unknownLeft h | unknownRight h | yes h | no h => cases h
      | and h1 h2 => rw [i1 h1, i2 h2]
    | or _ _ i1 i2 =>
      intro v h
      cases h with
      | unknownLeft h | unknownRight h | yes h | no h => cases h
      | or h1 h2 => rw [i1 h1, i2 h2]
  exact hne (uniq hu hy)

/-- **C195 (part).**  If the store can write a condition for a simple filter, the database selects the row of every entity of
which the filter is true, and leaves out every one of which it is false, if the properties the filter names are not null. -/
theorem sql_filter_partial {lv : Op → Nat} (hP : Precedences lv) (C : Coll) (E : Eval.Env) (W : Eval.World) (id : Nat)
    {row : Str → Cell} (hrow : RowOf C W id row) {e : Expr} (he : Simple e) (hn : NoNulls W id e) {q : List Piece} {ps : List Param}
    (h : filterClause C e = .ok (q, ps)) :
    (TrueOf E W id e → Selects lv row q ps) ∧ (FalseOf E W id e → LeavesOut lv row q ps) := by
  obtain ⟨t, t', hm, hr, hread⟩ := sql_reads_partial hP C (SQ.simple_orderly he) h
  refine ⟨fun ht => ?_, fun hf => ?_⟩
  · obtain ⟨b, e1, hb⟩ := SQ.simple_holds hrow he hn hm ht
    cases e1
    exact ⟨t', hread, ((SQ.regrouped_same row hr).2 _).2 hb⟩
  · obtain ⟨b, e1, hb⟩ := SQ.simple_holds hrow he hn hm hf
    cases e1
    exact ⟨t', hread, .no, ((SQ.regrouped_same row hr).2 _).2 hb, by decide⟩

/-- The theorem speaks of filters that occur: `A gt 1 and (startswith(B,'x') or A eq 5)` of an entity with the values 2 and `xy`. -/
theorem sql_filter_example (E : Eval.Env) :
    ∃ C W row e out, RowOf C W 0 row ∧ Simple e ∧ NoNulls W 0 e ∧ filterClause C e = .ok out ∧ TrueOf E W 0 e ∧
      out.2 = [.int 1, .text ['x'], .int 5] := by
  refine ⟨{ props := [(['A'], .simple), (['B'], .simple)], mangled := fun n => if n = [['A']] then some ['A'] else
      if n = [['B']] then some ['B'] else none, table := ['T'], qualify := false, lite := false },
    fun _ => ⟨0, [], none, [(['A'], .simple (.int32 2)), (['B'], .simple (.string ['x', 'y']))], []⟩,
    fun c => if c = ['A'] then .int 2 else .text ['x', 'y'],
    .binary .boolAnd [.binary .gt [.prop ['A'], .lit (.int32 1)],
      .binary .boolOr [.call .startswith [.prop ['B'], .lit (.string ['x'])], .binary .eq [.prop ['A'], .lit (.int32 5)]]],
    _, ⟨fun _ => rfl, ?_⟩, ?_, ?_, rfl, rfl, rfl⟩
  · intro n q hq
    by_cases h1 : n = ['A']
    · subst h1
      cases hq
      exact ⟨_, rfl, .int32 2⟩
    · by_cases h2 : n = ['B']
      · subst h2
        cases hq
        exact ⟨_, rfl, .string _⟩
      · have e1 : ¬ [n] = [['A']] := by simpa using h1
        have e2 : ¬ [n] = [['B']] := by simpa using h2
        simp [e1, e2] at hq
  · refine .and (.cmp (by decide) (.prop _) (.int32 _)) (.or (.starts (.prop _) ?_) (.cmp (by decide) (.prop _) (.int32 _)))
    intro c hc
    simp at hc
    subst hc
    decide
  · exact .binary (.binary (.prop rfl rfl) (.lit _)) (.binary (.call (.prop rfl rfl) (.lit _)) (.binary (.prop rfl rfl) (.lit _)))

end Verif.Props
