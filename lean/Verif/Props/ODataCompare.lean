import Verif.Lemmas.ODataOrder
import Verif.Props.ODataArith

/-!
# Comparisons and truth values in OData expressions
-/

namespace Verif.Props

open Verif Verif.OData Verif.OData.Eval

/-! ## C146: comparisons -/

theorem eval_relation {E : Env} {W : World} {ctx : Option Value} {op : Oper} {x y : Expr} {l r : Value}
    (hx : eval E W ctx x = .ok l) (hy : eval E W ctx y = .ok r) (hop : op = .lt ∨ op = .gt ∨ op = .le ∨ op = .ge) :
    eval E W ctx (.binary op [x, y]) = relate E op l r := by
  rcases hop with rfl | rfl | rfl | rfl <;> exact eval_two hx hy (by decide) (by decide) (by decide)

theorem eval_equal {E : Env} {W : World} {ctx : Option Value} {x y : Expr} {l r : Value}
    (hx : eval E W ctx x = .ok l) (hy : eval E W ctx y = .ok r) :
    eval E W ctx (.binary .eq [x, y]) = (equal E W l r).map fun b => .simple (.bool b) :=
  eval_two hx hy (by decide) (by decide) (by decide)

/-- `ne` is the opposite of `eq`, and raises the same errors. -/
theorem ne_is_not_eq {E : Env} {W : World} {ctx : Option Value} {x y : Expr} :
    (∀ v, eval E W ctx (.binary .eq [x, y]) = .ok v → ∃ b, v = .simple (.bool b) ∧
      eval E W ctx (.binary .ne [x, y]) = .ok (.simple (.bool (!b)))) ∧
      ∀ e, eval E W ctx (.binary .eq [x, y]) = .error e ↔ eval E W ctx (.binary .ne [x, y]) = .error e := by
  have h : ∀ op, op = .eq ∨ op = .ne → eval E W ctx (.binary op [x, y]) =
      (eval E W ctx x).bind fun l => (eval E W ctx y).bind fun r => binary E W op l r := by
    rintro op (rfl | rfl) <;> rw [eval] <;> rfl
  rw [h _ (.inl rfl), h _ (.inr rfl)]
  cases eval E W ctx x with
  | error e => exact ⟨fun v h => (by cases h), fun e => Iff.rfl⟩
  | ok l =>
    cases eval E W ctx y with
    | error e => exact ⟨fun v h => (by cases h), fun e => Iff.rfl⟩
    | ok r =>
      show (∀ v, (equal E W l r).map _ = .ok v → ∃ b, v = _ ∧ (equal E W l r).map _ = _) ∧
        ∀ e, (equal E W l r).map _ = _ ↔ (equal E W l r).map _ = _
      cases equal E W l r with
      | error e => exact ⟨fun v h => (by cases h), fun e => Iff.rfl⟩
      | ok b => exact ⟨fun v h => ⟨b, by cases h; rfl, rfl⟩, fun e => ⟨fun h => (by cases h), fun h => (by cases h)⟩⟩

/-- What the comparisons of two simple values can come to. -/
theorem comparison_cases {E : Env} (hE : Faithful E) {l r : SVal} (hl : l.Fits) (hr : r.Fits) :
    (promoteTypes l.ty r.ty = .error .evaluation) ∨ (Common l.ty r.ty none) ∨
      (∃ t l' r', Common l.ty r.ty (some t) ∧ t ∈ arithTypes ∧ l.cast E t = .ok l' ∧ r.cast E t = .ok r' ∧
        l'.ty = some t ∧ r'.ty = some t ∧ l'.isNull = l.isNull ∧ r'.isNull = r.isNull) ∨
      (∃ t, Common l.ty r.ty (some t) ∧ t ∉ arithTypes) := by
  cases h : promoteTypes l.ty r.ty with
  | error e => exact .inl (by rw [(promote_error h).1])
  | ok o =>
    have hc := promote_ok.mp h
    cases o with
    | none => exact .inr (.inl hc)
    | some t =>
      by_cases ht : t ∈ arithTypes
      · obtain ⟨l', h1, h2, h3, _⟩ := cast_up hE (common_up hc).1 hl
        obtain ⟨r', h4, h5, h6, _⟩ := cast_up hE (common_up hc).2 hr
        exact .inr (.inr (.inl ⟨t, l', r', hc, ht, h1, h4, h2, h5, h3, h6⟩))
      · exact .inr (.inr (.inr ⟨t, hc, ht⟩))

theorem common_none {a b : Option Ty} (h : Common a b none) : a = none ∧ b = none := by
  cases h <;> exact ⟨rfl, rfl⟩

theorem eqRaw_comm {l r : SVal} {t : Ty} (hc : Common l.ty r.ty (some t))
    (ht : t = .string ∨ t = .dateTime ∨ t = .guid ∨ t = .binary) : eqRaw l r = eqRaw r l := by
  have raw : t = .string ∨ t = .dateTime ∨ t = .guid → eqRaw l r = eqRaw r l := by
    intro ht
    have hs := cmpRaw_swap ht hc
    have e : ∀ l r : SVal, (∀ a b, l = .binary a → r = .binary b → False) → eqRaw l r = decide (cmpRaw l r = .eq) := by
      intro l r h
      rw [eqRaw.eq_def]
      split
      · exact (h _ _ rfl rfl).elim
      · rfl
    have hup := (common_up hc).1
    have hup' := (common_up hc).2
    have nb : ∀ v : SVal, Up v.ty t → ∀ a, v = .binary a → False := by
      intro v hv a h
      subst h
      rcases hv with h | h | ⟨x, m, n, hx, hm, hn, _⟩
      · cases h
      · cases h; rcases ht with h | h | h <;> cases h
      · rcases ht with h | h | h <;> subst h <;> cases hn
    rw [e l r (fun a _ h _ => nb l hup a h), e r l (fun a _ h _ => nb r hup' a h), hs]
    cases cmpRaw l r <;> rfl
  rcases ht with h | h | h | h
  · exact raw (.inl h)
  · exact raw (.inr (.inl h))
  · exact raw (.inr (.inr h))
  · subst h
    have shape : ∀ v : SVal, Up v.ty .binary → (∃ o, v = .null o) ∨ ∃ a, v = .binary a := by
      intro v hv
      cases v with
      | null o => exact .inl ⟨o, rfl⟩
      | binary a => exact .inr ⟨a, rfl⟩
      | bool | byte | sbyte | int16 | int32 | int64 | decimal | double | single | string | guid | dateTime | time | offset =>
        rcases hv with h | h | ⟨x, m, n, hx, hm, hn, _⟩
        · cases h
        · cases h
        · cases hn
    rcases shape l (common_up hc).1 with ⟨o, rfl⟩ | ⟨a, rfl⟩ <;> rcases shape r (common_up hc).2 with ⟨o', rfl⟩ | ⟨b, rfl⟩
    · rfl
    · rfl
    · rfl
    · show decide (a = b) = decide (b = a)
      exact decide_eq_decide.mpr eq_comm

/-- `eq` does not depend on the order of its operands. -/
theorem eq_symmetric {E : Env} {W : World} {ctx : Option Value} {x y : Expr} {l r : Value} (hE : Faithful E)
    (hx : eval E W ctx x = .ok l) (hy : eval E W ctx y = .ok r) (hl : l.Fits) (hr : r.Fits) :
    eval E W ctx (.binary .eq [x, y]) = eval E W ctx (.binary .eq [y, x]) := by
  rw [eval_equal hx hy, eval_equal hy hx]
  congr 1
  cases l with
  | entity a =>
    cases r with
    | entity b =>
      show (if (W a).set = (W b).set then _ else _) = (if (W b).set = (W a).set then _ else _)
      by_cases h : (W a).set = (W b).set
      · rw [if_pos h, if_pos h.symm]
        cases (W a).key <;> cases (W b).key <;> try rfl
        rename_i k m
        exact congrArg Except.ok (decide_eq_decide.mpr eq_comm)
      · rw [if_neg h, if_neg (fun e => h e.symm)]
    | simple | complex => rfl
  | complex f => cases r <;> rfl
  | simple l =>
    cases r with
    | entity | complex => rfl
    | simple r =>
      rcases comparison_cases hE hl hr with h | h | ⟨t, l', r', hc, ht, h1, h2, _⟩ | ⟨t, hc, ht⟩
      · have h' : promoteTypes r.ty l.ty = .error .evaluation := by rw [← (common_type_laws l.ty r.ty none).1, h]
        rw [equal, equal, promoteOperands, promoteOperands, h, h'] <;> first | rfl | (intro a b e; cases e)
      · rw [equal, equal, promoteOperands, promoteOperands, promote_ok.mpr h, promote_ok.mpr h.symm] <;>
          first | rfl | (intro a b e; cases e)
      · rw [equal_num hc ht h1 h2, equal_num hc.symm ht h2 h1, eqNum_comm]
      · by_cases hr : t = .string ∨ t = .dateTime ∨ t = .guid ∨ t = .binary
        · rw [equal_raw hc hr, equal_raw hc.symm hr, eqRaw_comm hc hr]
        · rw [equal, equal, promoteOperands, promoteOperands, promote_ok.mpr hc, promote_ok.mpr hc.symm]
          · show (if t ∈ arithTypes then _ else if _ then _ else _) = (if t ∈ arithTypes then _ else if _ then _ else _)
            rw [if_neg ht, if_neg hr, if_neg ht, if_neg hr]
          · intro a b e; cases e
          · intro a b e; cases e

theorem relation_swap (o : Ordering) :
    relation .gt o.swap = relation .lt o ∧ relation .ge o.swap = relation .le o ∧
      relation .lt o.swap = relation .gt o ∧ relation .le o.swap = relation .ge o := by
  cases o <;> decide

/-- `gt` and `ge` are `lt` and `le` with the operands exchanged. -/
theorem relations_mirrored {E : Env} {W : World} {ctx : Option Value} {x y : Expr} {l r : Value} (hE : Faithful E)
    (hx : eval E W ctx x = .ok l) (hy : eval E W ctx y = .ok r) (hl : l.Fits) (hr : r.Fits) :
    eval E W ctx (.binary .gt [x, y]) = eval E W ctx (.binary .lt [y, x]) ∧
      eval E W ctx (.binary .ge [x, y]) = eval E W ctx (.binary .le [y, x]) := by
  rw [eval_relation hx hy (.inr (.inl rfl)), eval_relation hy hx (.inl rfl), eval_relation hx hy (.inr (.inr (.inr rfl))),
    eval_relation hy hx (.inr (.inr (.inl rfl)))]
  cases l with
  | entity a => exact ⟨by cases r <;> rfl, by cases r <;> rfl⟩
  | complex f => exact ⟨by cases r <;> rfl, by cases r <;> rfl⟩
  | simple l =>
    cases r with
    | entity | complex => exact ⟨rfl, rfl⟩
    | simple r =>
      rcases comparison_cases hE hl hr with h | h | ⟨t, l', r', hc, ht, h1, h2, _⟩ | ⟨t, hc, ht⟩
      · have h' : promoteTypes r.ty l.ty = .error .evaluation := by rw [← (common_type_laws l.ty r.ty none).1, h]
        constructor <;> rw [relate, relate, promoteOperands, promoteOperands, h, h'] <;> rfl
      · constructor <;>
          rw [relate, relate, promoteOperands, promoteOperands, promote_ok.mpr h, promote_ok.mpr h.symm] <;> rfl
      · rw [relate_num hc ht h1 h2, relate_num hc.symm ht h2 h1, relate_num hc ht h1 h2, relate_num hc.symm ht h2 h1,
          cmpNum_swap l' r']
        cases cmpNum l' r' with
        | none => exact ⟨rfl, rfl⟩
        | some o => cases o <;> exact ⟨rfl, rfl⟩
      · by_cases hr : t = .string ∨ t = .dateTime ∨ t = .guid
        · rw [relate_raw hc hr, relate_raw hc.symm hr, relate_raw hc hr, relate_raw hc.symm hr, cmpRaw_swap hr hc]
          cases cmpRaw l r <;> exact ⟨rfl, rfl⟩
        · have e : ∀ op (a b : SVal), Common a.ty b.ty (some t) → relate E op (.simple a) (.simple b) = .error .evaluation := by
            intro op a b hc
            rw [relate, promoteOperands, promote_ok.mpr hc]
            show (if t ∈ arithTypes then _ else if _ then _ else _) = _
            rw [if_neg ht, if_neg hr]
          rw [e _ _ _ hc, e _ _ _ hc.symm, e _ _ _ hc, e _ _ _ hc.symm]
          exact ⟨rfl, rfl⟩

/-- Numbers of one type, compared. -/
theorem cmpNum_number {l r : SVal} {t : Ty} {a b : Rat} (ht : t ∈ arithTypes) (hl : l.ty = some t) (hr : r.ty = some t)
    (ha : l.number = some a) (hb : r.number = some b) :
    cmpNum l r = some (if a < b then .lt else if a = b then .eq else .gt) := by
  have int : ∀ m n : Int, compare m n = (if (m : Rat) < n then Ordering.lt else if (m : Rat) = n then .eq else .gt) := by
    intro m n
    show (if m < n then _ else if m = n then _ else _) = _
    simp only [Rat.intCast_lt_intCast, Rat.intCast_inj]
  cases l <;> first | (cases ha; done) | skip <;> cases hl <;> cases r <;> first | (cases hr; done) | skip <;>
    first | (cases hb; done) | skip
  all_goals try (exact absurd ht (by decide))
  · cases ha; cases hb; exact congrArg some (int _ _)
  · cases ha; cases hb; exact congrArg some (int _ _)
  · cases ha; cases hb; rfl
  · rename_i x y
    cases x <;> cases ha
    cases y <;> cases hb
    rfl
  · rename_i x y
    cases x <;> cases ha
    cases y <;> cases hb
    rfl

/-- Numbers are compared by their exact values, if at least one type is Int32, Int64 or Decimal and none is a
floating-point type, or if both are of the same floating-point type. -/
theorem numbers_compared_partial {E : Env} {W : World} {ctx : Option Value} {x y : Expr} {l r : SVal} {t : Ty} {a b : Rat}
    (hE : Faithful E) (hx : eval E W ctx x = .ok (.simple l)) (hy : eval E W ctx y = .ok (.simple r)) (hl : l.Fits)
    (hr : r.Fits) (ha : l.number = some a) (hb : r.number = some b) (hc : Common l.ty r.ty (some t))
    (ht : t = .int32 ∨ t = .int64 ∨ t = .decimal ∨ (t = .single ∨ t = .double) ∧ l.ty = r.ty) :
    eval E W ctx (.binary .lt [x, y]) = .ok (.simple (.bool (decide (a < b)))) ∧
      eval E W ctx (.binary .le [x, y]) = .ok (.simple (.bool (decide (a ≤ b)))) ∧
      eval E W ctx (.binary .gt [x, y]) = .ok (.simple (.bool (decide (b < a)))) ∧
      eval E W ctx (.binary .ge [x, y]) = .ok (.simple (.bool (decide (b ≤ a)))) ∧
      eval E W ctx (.binary .eq [x, y]) = .ok (.simple (.bool (decide (a = b)))) ∧
      eval E W ctx (.binary .ne [x, y]) = .ok (.simple (.bool (decide (a ≠ b)))) := by
  have hmem : t ∈ arithTypes := by rcases ht with rfl | rfl | rfl | ⟨rfl | rfl, _⟩ <;> decide
  obtain ⟨l', h1, h2, _, _, h3, h3'⟩ := cast_up hE (common_up hc).1 hl
  obtain ⟨r', h4, h5, _, _, h6, h6'⟩ := cast_up hE (common_up hc).2 hr
  have same : l.ty = r.ty → l.ty = some t := by
    intro e
    rw [← e] at hc
    exact (hc.unique (.same _)).symm
  have hla : l'.number = some a := by
    by_cases e : l.ty = some t
    · rw [h3' e, ha]
    · rw [← ha]
      refine h3 e ?_ ?_
      · intro h; subst h; rcases ht with h | h | h | ⟨_, h⟩
        · cases h
        · cases h
        · cases h
        · exact e (same h)
      · intro h; subst h; rcases ht with h | h | h | ⟨_, h⟩
        · cases h
        · cases h
        · cases h
        · exact e (same h)
  have hrb : r'.number = some b := by
    by_cases e : r.ty = some t
    · rw [h6' e, hb]
    · rw [← hb]
      refine h6 e ?_ ?_
      · intro h; subst h; rcases ht with h | h | h | ⟨_, h⟩
        · cases h
        · cases h
        · cases h
        · exact e (h.symm.trans (same h))
      · intro h; subst h; rcases ht with h | h | h | ⟨_, h⟩
        · cases h
        · cases h
        · cases h
        · exact e (h.symm.trans (same h))
  have hcmp := cmpNum_number hmem h2 h5 hla hrb
  have heq : equal E W (.simple l) (.simple r) = .ok (decide (a = b)) := by
    rw [equal_num hc hmem h1 h4, eqNum.eq_def]
    split
    · cases hla
    · rw [hcmp]
      congr 1
      by_cases h : a < b
      · rw [if_pos h]
        have : a ≠ b := by intro e; subst e; exact Rat.lt_irrefl h
        simp [this]
      · rw [if_neg h]
        by_cases e : a = b
        · rw [if_pos e]; simp [e]
        · rw [if_neg e]; simp [e]
  rw [eval_relation hx hy (.inl rfl), eval_relation hx hy (.inr (.inl rfl)), eval_relation hx hy (.inr (.inr (.inl rfl))),
    eval_relation hx hy (.inr (.inr (.inr rfl))), eval_equal hx hy, heq, relate_num hc hmem h1 h4, relate_num hc hmem h1 h4,
    relate_num hc hmem h1 h4, relate_num hc hmem h1 h4, hcmp,
    eval_two hx hy (op := .ne) (by decide) (by decide) (by decide)]
  have hne : binary E W .ne (.simple l) (.simple r) = .ok (.simple (.bool (decide (a ≠ b)))) := by
    show (equal E W (.simple l) (.simple r)).map _ = _
    rw [heq]
    show Except.ok (Value.simple (.bool (!decide (a = b)))) = _
    rw [← decide_not]
  rw [hne]
  by_cases h : a < b
  · have e1 : ¬ b < a := by grind
    have e2 : a ≤ b := by grind
    have e3 : ¬ b ≤ a := by grind
    have e4 : a ≠ b := by intro e; subst e; exact Rat.lt_irrefl h
    simp [h, e1, e2, e3, e4, relation, Except.map]
  · by_cases e : a = b
    · subst e
      simp [h, relation, Except.map]
    · have e1 : b < a := by grind
      have e2 : ¬ a ≤ b := by grind
      have e3 : b ≤ a := by grind
      simp [h, e, e1, e2, e3, relation, Except.map]

/-- Strings are compared like the words of a dictionary, by the codes of their characters. -/
theorem strings_compared {E : Env} {W : World} {ctx : Option Value} {x y : Expr} {a b : Str}
    (hx : eval E W ctx x = .ok (.simple (.string a))) (hy : eval E W ctx y = .ok (.simple (.string b))) :
    ∃ lt eq gt : Bool, eval E W ctx (.binary .lt [x, y]) = .ok (.simple (.bool lt)) ∧
      eval E W ctx (.binary .le [x, y]) = .ok (.simple (.bool (!gt))) ∧
      eval E W ctx (.binary .gt [x, y]) = .ok (.simple (.bool gt)) ∧
      eval E W ctx (.binary .ge [x, y]) = .ok (.simple (.bool (!lt))) ∧
      eval E W ctx (.binary .eq [x, y]) = .ok (.simple (.bool eq)) ∧
      (lt = true ↔ Before (fun c d : Char => c.toNat < d.toNat) a b) ∧ (eq = true ↔ a = b) ∧
      (gt = true ↔ Before (fun c d : Char => c.toNat < d.toNat) b a) := by
  have hc : Common (SVal.string a).ty (SVal.string b).ty (some .string) := .same _
  have hlt : ∀ a b : Str, cmpStr a b = .lt ↔ Before (fun c d : Char => c.toNat < d.toNat) a b := by
    intro a b
    rw [cmpStr_eq, cmpBy_lt toNat_inj]
    simp only [Int.ofNat_lt]
  have heq : cmpStr a b = .eq ↔ a = b := by rw [cmpStr_eq, cmpBy_eq toNat_inj]
  have hsw : cmpStr b a = (cmpStr a b).swap := by rw [cmpStr_eq, cmpStr_eq, cmpBy_swap]
  rw [eval_relation hx hy (.inl rfl), eval_relation hx hy (.inr (.inl rfl)), eval_relation hx hy (.inr (.inr (.inl rfl))),
    eval_relation hx hy (.inr (.inr (.inr rfl))), eval_equal hx hy, equal_raw hc (.inl rfl), relate_raw hc (.inl rfl),
    relate_raw hc (.inl rfl), relate_raw hc (.inl rfl), relate_raw hc (.inl rfl), ← hlt a b, ← heq, ← hlt b a, hsw]
  show ∃ lt eq gt : Bool, Except.ok (Value.simple (.bool (relation .lt (cmpStr a b)))) = _ ∧
    Except.ok (Value.simple (.bool (relation .le (cmpStr a b)))) = _ ∧
    Except.ok (Value.simple (.bool (relation .gt (cmpStr a b)))) = _ ∧
    Except.ok (Value.simple (.bool (relation .ge (cmpStr a b)))) = _ ∧
    Except.ok (Value.simple (.bool (decide (cmpStr a b = .eq)))) = _ ∧ _
  cases cmpStr a b
  · exact ⟨true, false, false, rfl, rfl, rfl, rfl, rfl, by decide, by decide, by decide⟩
  · exact ⟨false, true, false, rfl, rfl, rfl, rfl, rfl, by decide, by decide, by decide⟩
  · exact ⟨false, false, true, rfl, rfl, rfl, rfl, rfl, by decide, by decide, by decide⟩

/-- Points of time are compared by the century, the year of the century, the month, the day, the hour, the minute, the second
and the fraction of a second, in this order. -/
theorem times_compared {E : Env} {W : World} {ctx : Option Value} {x y : Expr} {d d' : Cal.Date} {h h' m m' s s' : Nat}
    {f f' : Str} (hx : eval E W ctx x = .ok (.simple (.dateTime d h m s f)))
    (hy : eval E W ctx y = .ok (.simple (.dateTime d' h' m' s' f'))) :
    ∃ lt eq gt : Bool, eval E W ctx (.binary .lt [x, y]) = .ok (.simple (.bool lt)) ∧
      eval E W ctx (.binary .le [x, y]) = .ok (.simple (.bool (!gt))) ∧
      eval E W ctx (.binary .gt [x, y]) = .ok (.simple (.bool gt)) ∧
      eval E W ctx (.binary .ge [x, y]) = .ok (.simple (.bool (!lt))) ∧
      eval E W ctx (.binary .eq [x, y]) = .ok (.simple (.bool eq)) ∧
      (lt = true ↔ Before (fun a b : Int => a < b)
        [d.century, d.year, d.month, d.day, h, m, s, ((Py.digitsVal 10 f * 10 ^ (7 - f.length) : Nat) : Int)]
        [d'.century, d'.year, d'.month, d'.day, h', m', s', ((Py.digitsVal 10 f' * 10 ^ (7 - f'.length) : Nat) : Int)]) ∧
      (eq = true ↔ d = d' ∧ h = h' ∧ m = m' ∧ s = s' ∧
        Py.digitsVal 10 f * 10 ^ (7 - f.length) = Py.digitsVal 10 f' * 10 ^ (7 - f'.length)) ∧
      (gt = true ↔ Before (fun a b : Int => a < b)
        [d'.century, d'.year, d'.month, d'.day, h', m', s', ((Py.digitsVal 10 f' * 10 ^ (7 - f'.length) : Nat) : Int)]
        [d.century, d.year, d.month, d.day, h, m, s, ((Py.digitsVal 10 f * 10 ^ (7 - f.length) : Nat) : Int)]) := by
  have hc : Common (SVal.dateTime d h m s f).ty (SVal.dateTime d' h' m' s' f').ty (some .dateTime) := .same _
  have hlt : ∀ a b : List Int, cmpInts a b = .lt ↔ Before (fun c d : Int => c < d) a b := by
    intro a b
    rw [cmpInts_eq, cmpBy_lt (fun _ _ h => h)]
  have heq : cmpInts (pointKey d h m s f) (pointKey d' h' m' s' f') = .eq ↔ d = d' ∧ h = h' ∧ m = m' ∧ s = s' ∧
      Py.digitsVal 10 f * 10 ^ (7 - f.length) = Py.digitsVal 10 f' * 10 ^ (7 - f'.length) := by
    rw [cmpInts_eq, cmpBy_eq (fun _ _ h => h)]
    simp only [pointKey, fraction, List.cons.injEq, and_true, Int.ofNat_inj]
    cases d; cases d'
    simp only [Cal.Date.mk.injEq]
    constructor
    · rintro ⟨a1, a2, a3, a4, a5, a6, a7, a8⟩; exact ⟨⟨a1, a2, a3, a4⟩, a5, a6, a7, a8⟩
    · rintro ⟨⟨a1, a2, a3, a4⟩, a5, a6, a7, a8⟩; exact ⟨a1, a2, a3, a4, a5, a6, a7, a8⟩
  have hsw : cmpInts (pointKey d' h' m' s' f') (pointKey d h m s f) =
      (cmpInts (pointKey d h m s f) (pointKey d' h' m' s' f')).swap := by
    rw [cmpInts_eq, cmpInts_eq, cmpBy_swap]
  rw [eval_relation hx hy (.inl rfl), eval_relation hx hy (.inr (.inl rfl)), eval_relation hx hy (.inr (.inr (.inl rfl))),
    eval_relation hx hy (.inr (.inr (.inr rfl))), eval_equal hx hy, equal_raw hc (.inr (.inl rfl)),
    relate_raw hc (.inr (.inl rfl)), relate_raw hc (.inr (.inl rfl)), relate_raw hc (.inr (.inl rfl)),
    relate_raw hc (.inr (.inl rfl)), ← heq]
  have e1 : ∀ (d : Cal.Date) (h m s : Nat) (f : Str), [d.century, d.year, d.month, d.day, (h : Int), m, s,
      ((Py.digitsVal 10 f * 10 ^ (7 - f.length) : Nat) : Int)] = pointKey d h m s f := fun _ _ _ _ _ => rfl
  rw [e1, e1, ← hlt, ← hlt, hsw]
  show ∃ lt eq gt : Bool, Except.ok (Value.simple (.bool (relation .lt (cmpInts _ _)))) = _ ∧
    Except.ok (Value.simple (.bool (relation .le (cmpInts _ _)))) = _ ∧
    Except.ok (Value.simple (.bool (relation .gt (cmpInts _ _)))) = _ ∧
    Except.ok (Value.simple (.bool (relation .ge (cmpInts _ _)))) = _ ∧
    Except.ok (Value.simple (.bool (decide (cmpInts _ _ = .eq)))) = _ ∧ _
  cases cmpInts (pointKey d h m s f) (pointKey d' h' m' s' f')
  · exact ⟨true, false, false, rfl, rfl, rfl, rfl, rfl, by decide, by decide, by decide⟩
  · exact ⟨false, true, false, rfl, rfl, rfl, rfl, rfl, by decide, by decide, by decide⟩
  · exact ⟨false, false, true, rfl, rfl, rfl, rfl, rfl, by decide, by decide, by decide⟩

/-- Null equals null and no number, string, GUID or binary value; no number is larger or smaller than null. -/
theorem null_compared_partial {E : Env} {W : World} {ctx : Option Value} {x y : Expr} {o : Option Ty} {r : SVal} {t : Ty}
    (hE : Faithful E) (hx : eval E W ctx x = .ok (.simple (.null o))) (hy : eval E W ctx y = .ok (.simple r)) (hr : r.Fits)
    (hc : Common o r.ty (some t))
    (ht : t = .int32 ∨ t = .int64 ∨ t = .decimal ∨ t = .single ∨ t = .double ∨ t = .string ∨ t = .guid ∨ t = .binary) :
    eval E W ctx (.binary .eq [x, y]) = .ok (.simple (.bool r.isNull)) ∧
      (t ≠ .string → t ≠ .guid → t ≠ .binary → ∀ op, op = .lt ∨ op = .gt ∨ op = .le ∨ op = .ge →
        eval E W ctx (.binary op [x, y]) = .ok (.simple (.bool false))) := by
  have hc' : Common (SVal.null o).ty r.ty (some t) := hc
  by_cases hmem : t ∈ arithTypes
  · obtain ⟨l', h1, h2, h3, _⟩ := cast_up (v := .null o) hE (common_up hc').1 trivial
    obtain ⟨r', h4, h5, h6, _⟩ := cast_up hE (common_up hc').2 hr
    have hl' : l' = .null (some t) := by
      cases l' <;> first | (cases h3; done) | skip
      rename_i u
      cases h2
      rfl
    subst hl'
    refine ⟨?_, fun _ _ _ op hop => ?_⟩
    · rw [eval_equal hx hy, equal_num hc' hmem h1 h4, ← h6]
      cases r' <;> rfl
    · rw [eval_relation hx hy hop, relate_num hc' hmem h1 h4]
      cases r' <;> rfl
  · have hraw : t = .string ∨ t = .guid ∨ t = .binary := by
      rcases ht with rfl | rfl | rfl | rfl | rfl | h
      · exact absurd (by decide) hmem
      · exact absurd (by decide) hmem
      · exact absurd (by decide) hmem
      · exact absurd (by decide) hmem
      · exact absurd (by decide) hmem
      · exact h
    refine ⟨?_, fun h1 h2 h3 => ?_⟩
    · rw [eval_equal hx hy, equal_raw hc' (by rcases hraw with h | h | h <;> simp [h])]
      cases r with
      | dateTime =>
        exfalso
        rcases (common_up hc').2 with h | h | ⟨x, m, n, hx, hm, hn, _⟩
        · cases h
        · cases h; rcases hraw with h | h | h <;> cases h
        · rcases hraw with h | h | h <;> subst h <;> cases hn
      | null | bool | byte | sbyte | int16 | int32 | int64 | decimal | double | single | string | binary | guid | time | offset =>
        rfl
    · rcases hraw with h | h | h
      · exact absurd h h1
      · exact absurd h h2
      · exact absurd h h3

/-- Dates and strings are larger than null, the first day of year 1 equals it; numbers of the types Byte and Int16 cannot be
compared, nor can Booleans. -/
theorem compared_refuted {E : Env} {W : World} {ctx : Option Value} (a b : Int) :
    eval E W ctx (.binary .eq [.lit (.dateTime ⟨0, 1, 1, 1⟩ 0 0 0 []), .lit .null]) = .ok (.simple (.bool true)) ∧
      eval E W ctx (.binary .gt [.lit (.dateTime ⟨20, 13, 1, 1⟩ 0 0 0 []), .lit .null]) = .ok (.simple (.bool true)) ∧
      eval E W ctx (.binary .lt [.lit .null, .lit (.string [])]) = .ok (.simple (.bool true)) ∧
      eval E W (some (.complex [(['a'], .simple (.byte a)), (['b'], .simple (.int16 b))]))
        (.binary .eq [.prop ['a'], .prop ['b']]) = .error .evaluation ∧
      eval E W ctx (.binary .eq [.lit (.bool true), .lit (.bool true)]) = .error .evaluation :=
  ⟨rfl, rfl, rfl, rfl, rfl⟩

/-- `1 lt 2.5M`, and `'ab' lt 'b'`. -/
theorem compared_example :
    eval sampleEnv noEntities none (.binary .lt [.lit (.int32 1), .lit (.decimal false 25 1)]) =
        .ok (.simple (.bool true)) ∧
      Common (some .int32) (some .decimal) (some .decimal) ∧
      Before (fun c d : Char => c.toNat < d.toNat) ['a', 'b'] ['b'] := by
  have e : decimalValue false 25 (-((1 : Nat) : Int)) = 5 / 2 := by decide +kernel
  have hy : eval sampleEnv noEntities none (.lit (.decimal false 25 1)) = .ok (.simple (.decimal (5 / 2))) := by
    show Except.ok (Value.simple (.decimal (decimalValue false 25 (-((1 : Nat) : Int))))) = _
    rw [e]
  have hc : Common (some .int32) (some .decimal) (some .decimal) := .right rfl rfl (by decide)
  have h := (numbers_compared_partial (x := .lit (.int32 1)) (y := .lit (.decimal false 25 1)) (W := noEntities) (ctx := none)
    (l := .int32 1) (r := .decimal (5 / 2)) (a := ((1 : Int) : Rat)) (b := 5 / 2) sample_faithful rfl hy
    (by simp only [SVal.Fits, range]; omega) ⟨by decide +kernel, by decide +kernel⟩ rfl rfl hc (.inr (.inr (.inl rfl)))).1
  have e2 : decide (((1 : Int) : Rat) < 5 / 2) = true := by decide +kernel
  rw [e2] at h
  exact ⟨h, hc, .inr ⟨[], 'a', ['b'], 'b', [], rfl, rfl, by decide⟩⟩

/-! ## C147: truth values -/

/-- `and`, `or` and `not` of truth values. -/
theorem truth_tables {E : Env} {W : World} {ctx : Option Value} {x y : Expr} {a b : Bool}
    (hx : eval E W ctx x = .ok (.simple (.bool a))) (hy : eval E W ctx y = .ok (.simple (.bool b))) :
    eval E W ctx (.binary .boolAnd [x, y]) = .ok (.simple (.bool (a && b))) ∧
      eval E W ctx (.binary .boolOr [x, y]) = .ok (.simple (.bool (a || b))) ∧
      eval E W ctx (.unary .boolNot [x]) = .ok (.simple (.bool (!a))) := by
  rw [eval_two hx hy (by decide) (by decide) (by decide), eval_two hx hy (by decide) (by decide) (by decide), eval_one hx]
  exact ⟨rfl, rfl, rfl⟩

/-- With a null for a truth value `and` and `or` are false, and `not` is null. -/
theorem truth_null {E : Env} {W : World} {ctx : Option Value} {x y : Expr} {o : Option Ty} {r : SVal}
    (ho : o = none ∨ o = some .boolean) (hr : r.ty = none ∨ r.ty = some .boolean)
    (hx : eval E W ctx x = .ok (.simple (.null o))) (hy : eval E W ctx y = .ok (.simple r)) :
    eval E W ctx (.binary .boolAnd [x, y]) = .ok (.simple (.bool false)) ∧
      eval E W ctx (.binary .boolAnd [y, x]) = .ok (.simple (.bool false)) ∧
      eval E W ctx (.binary .boolOr [x, y]) = .ok (.simple (.bool false)) ∧
      eval E W ctx (.binary .boolOr [y, x]) = .ok (.simple (.bool false)) ∧
      eval E W ctx (.unary .boolNot [x]) = .ok (.simple (.null (some .boolean))) := by
  rw [eval_two hx hy (by decide) (by decide) (by decide), eval_two hx hy (by decide) (by decide) (by decide),
    eval_two hy hx (by decide) (by decide) (by decide), eval_two hy hx (by decide) (by decide) (by decide), eval_one hx]
  have shape : (∃ u, r = .null u ∧ (u = none ∨ u = some .boolean)) ∨ ∃ b, r = .bool b := by
    cases r with
    | null u => exact .inl ⟨u, rfl, hr⟩
    | bool b => exact .inr ⟨b, rfl⟩
    | byte | sbyte | int16 | int32 | int64 | decimal | double | single | string | binary | guid | dateTime | time | offset =>
      rcases hr with h | h <;> cases h
  rcases shape with ⟨u, rfl, rfl | rfl⟩ | ⟨b, rfl⟩ <;> rcases ho with rfl | rfl <;> exact ⟨rfl, rfl, rfl, rfl, rfl⟩

/-- What is no truth value and not null cannot be an operand of `and`, `or` and `not`: `EvaluationError` is raised. -/
theorem truth_error {E : Env} {W : World} {ctx : Option Value} {x y : Expr} {v w : Value}
    (hv : ∀ s, v = .simple s → s.isNull = false ∧ ∀ b, s ≠ .bool b)
    (hx : eval E W ctx x = .ok v) (hy : eval E W ctx y = .ok w) :
    eval E W ctx (.binary .boolAnd [x, y]) = .error .evaluation ∧
      eval E W ctx (.binary .boolAnd [y, x]) = .error .evaluation ∧
      eval E W ctx (.binary .boolOr [x, y]) = .error .evaluation ∧
      eval E W ctx (.binary .boolOr [y, x]) = .error .evaluation ∧
      eval E W ctx (.unary .boolNot [x]) = .error .evaluation := by
  rw [eval_two hx hy (by decide) (by decide) (by decide), eval_two hx hy (by decide) (by decide) (by decide),
    eval_two hy hx (by decide) (by decide) (by decide), eval_two hy hx (by decide) (by decide) (by decide), eval_one hx]
  cases v with
  | complex f => exact ⟨rfl, by cases w <;> rfl, rfl, by cases w <;> rfl, rfl⟩
  | entity f => exact ⟨rfl, by cases w <;> rfl, rfl, by cases w <;> rfl, rfl⟩
  | simple l =>
    obtain ⟨h1, h2⟩ := hv l rfl
    have hnot : boolNot (.simple l) = .error .evaluation := by
      cases l <;> first | rfl | (cases h1; done) | exact absurd rfl (h2 _)
    have hty : ∃ t, l.ty = some t ∧ t ≠ .boolean := by
      cases l <;> first | (cases h1; done) | exact absurd rfl (h2 _) | exact ⟨_, rfl, by decide⟩
    obtain ⟨t, ht, hb⟩ := hty
    cases w with
    | complex f => exact ⟨rfl, rfl, rfl, rfl, hnot⟩
    | entity f => exact ⟨rfl, rfl, rfl, rfl, hnot⟩
    | simple r =>
      have key : ∀ (op : Oper) (a b : SVal), (a.ty = some t ∨ b.ty = some t) →
          logic op (.simple a) (.simple b) = .error .evaluation := by
        intro op a b hab
        rw [logic, promoteOperands]
        cases hp : promoteTypes a.ty b.ty with
        | error e => rw [(promote_error hp).1]; rfl
        | ok c =>
          have hc := promote_ok.mp hp
          have hcb : ∃ u, c = some u ∧ u ≠ .boolean := by
            cases c with
            | none =>
              have := common_none hc
              rcases hab with h | h
              · rw [this.1] at h; cases h
              · rw [this.2] at h; cases h
            | some u =>
              refine ⟨u, rfl, fun e => ?_⟩
              subst e
              have hu := common_up hc
              have : ∀ z : Option Ty, z = some t → Up z .boolean → False := by
                intro z hz hu
                rw [hz] at hu
                rcases hu with h | h | ⟨x, m, n, _, _, hn, _⟩
                · cases h
                · cases h; exact hb rfl
                · cases hn
              rcases hab with h | h
              · exact this _ h hu.1
              · exact this _ h hu.2
          obtain ⟨u, rfl, hu⟩ := hcb
          cases u <;> first | rfl | exact absurd rfl hu
      exact ⟨key .boolAnd l r (.inl ht), key .boolAnd r l (.inr ht), key .boolOr l r (.inl ht), key .boolOr r l (.inr ht), hnot⟩

/-- `true or null` is false; `1 and true` raises `EvaluationError`. -/
theorem truth_example {E : Env} {W : World} {ctx : Option Value} :
    eval E W ctx (.binary .boolOr [.lit (.bool true), .lit .null]) = .ok (.simple (.bool false)) ∧
      eval E W ctx (.binary .boolAnd [.lit (.int32 1), .lit (.bool true)]) = .error .evaluation ∧
      eval E W ctx (.binary .boolAnd [.binary .lt [.lit (.int32 1), .lit (.int32 2)], .lit (.bool true)]) =
        .ok (.simple (.bool true)) :=
  ⟨rfl, rfl, rfl⟩

end Verif.Props
