import Verif.Lemmas.ODataSteps

/-!
# The order of values in OData expressions
-/

namespace Verif.OData.Eval

open Verif

/-- Lists by a number for each member. -/
def cmpBy {α : Type} (f : α → Int) : List α → List α → Ordering
  | [], [] => .eq
  | [], _ :: _ => .lt
  | _ :: _, [] => .gt
  | a :: s, b :: t => if f a < f b then .lt else if f a = f b then cmpBy f s t else .gt

theorem cmpInts_eq (a b : List Int) : cmpInts a b = cmpBy (fun n => n) a b := by
  induction a generalizing b with
  | nil => cases b <;> rfl
  | cons x s ih =>
    cases b with
    | nil => rfl
    | cons y t => simp only [cmpInts, cmpBy, ih]

theorem cmpStr_eq (a b : Str) : cmpStr a b = cmpBy (fun c => (c.toNat : Int)) a b := by
  induction a generalizing b with
  | nil => cases b <;> rfl
  | cons x s ih =>
    cases b with
    | nil => rfl
    | cons y t => simp only [cmpStr, cmpBy, ih, Int.ofNat_lt, Int.ofNat_inj]

theorem cmpBy_swap {α : Type} (f : α → Int) (a b : List α) : cmpBy f b a = (cmpBy f a b).swap := by
  induction a generalizing b with
  | nil => cases b <;> rfl
  | cons x s ih =>
    cases b with
    | nil => rfl
    | cons y t =>
      simp only [cmpBy]
      rcases Int.lt_trichotomy (f x) (f y) with h | h | h
      · rw [if_neg (by omega), if_neg (by omega), if_pos h]; rfl
      · rw [if_neg (by omega), if_pos h.symm, if_neg (by omega), if_pos h]; exact ih t
      · rw [if_pos h, if_neg (by omega), if_neg (by omega)]; rfl

theorem cmpBy_eq {α : Type} {f : α → Int} (hf : ∀ x y, f x = f y → x = y) (a b : List α) : cmpBy f a b = .eq ↔ a = b := by
  induction a generalizing b with
  | nil => cases b <;> simp [cmpBy]
  | cons x s ih =>
    cases b with
    | nil => simp [cmpBy]
    | cons y t =>
      simp only [cmpBy, List.cons.injEq]
      rcases Int.lt_trichotomy (f x) (f y) with h | h | h
      · rw [if_pos h]
        refine ⟨fun h => (by cases h), fun h' => ?_⟩
        rw [h'.1] at h; omega
      · rw [if_neg (by omega), if_pos h, ih t]
        exact ⟨fun h' => ⟨hf _ _ h, h'⟩, fun h' => h'.2⟩
      · rw [if_neg (by omega), if_neg (by omega)]
        refine ⟨fun h => (by cases h), fun h' => ?_⟩
        rw [h'.1] at h; omega

theorem before_cons {α : Type} {less : α → α → Prop} {x y : α} {s t : List α} :
    Before less (x :: s) (y :: t) ↔ less x y ∨ x = y ∧ Before less s t := by
  constructor
  · rintro (⟨c, u, h⟩ | ⟨p, c, u, d, v, h1, h2, h3⟩)
    · injection h with h h'
      exact .inr ⟨h.symm, .inl ⟨c, u, h'⟩⟩
    · cases p with
      | nil =>
        injection h1 with h1 _
        injection h2 with h2 _
        subst h1 h2
        exact .inl h3
      | cons z p =>
        injection h1 with h1 h1'
        injection h2 with h2 h2'
        exact .inr ⟨h1.trans h2.symm, .inr ⟨p, c, u, d, v, h1', h2', h3⟩⟩
  · rintro (h | ⟨rfl, h⟩)
    · exact .inr ⟨[], x, s, y, t, rfl, rfl, h⟩
    · rcases h with ⟨c, u, h⟩ | ⟨p, c, u, d, v, h1, h2, h3⟩
      · exact .inl ⟨c, u, by rw [h]; rfl⟩
      · exact .inr ⟨x :: p, c, u, d, v, by rw [h1]; rfl, by rw [h2]; rfl, h3⟩

theorem cmpBy_lt {α : Type} {f : α → Int} (hf : ∀ x y, f x = f y → x = y) (a b : List α) :
    cmpBy f a b = .lt ↔ Before (fun x y => f x < f y) a b := by
  induction a generalizing b with
  | nil =>
    cases b with
    | nil =>
      simp only [cmpBy]
      constructor
      · intro h; cases h
      · rintro (⟨c, u, h⟩ | ⟨p, c, u, d, v, h1, h2, h3⟩)
        · cases h
        · cases p <;> cases h1
    | cons y t =>
      simp only [cmpBy, true_iff]
      exact .inl ⟨y, t, rfl⟩
  | cons x s ih =>
    cases b with
    | nil =>
      simp only [cmpBy]
      constructor
      · intro h; cases h
      · rintro (⟨c, u, h⟩ | ⟨p, c, u, d, v, h1, h2, h3⟩)
        · cases h
        · cases p <;> cases h2
    | cons y t =>
      rw [before_cons, cmpBy]
      rcases Int.lt_trichotomy (f x) (f y) with h | h | h
      · rw [if_pos h]
        exact ⟨fun _ => .inl h, fun _ => rfl⟩
      · rw [if_neg (by omega), if_pos h, ih t]
        refine ⟨fun h' => .inr ⟨hf _ _ h, h'⟩, fun h' => ?_⟩
        rcases h' with h' | h'
        · omega
        · exact h'.2
      · rw [if_neg (by omega), if_neg (by omega)]
        refine ⟨fun h => (by cases h), fun h' => ?_⟩
        rcases h' with h' | h'
        · omega
        · rw [h'.1] at h; omega

theorem toNat_inj (x y : Char) (h : (x.toNat : Int) = y.toNat) : x = y :=
  Char.toNat_inj.mp (Int.ofNat_inj.mp h)

/-- The three-way comparison of numbers and its mirror image. -/
theorem cmpNum_swap (l r : SVal) : cmpNum r l = (cmpNum l r).map Ordering.swap := by
  have rat : ∀ a b : Rat, (if b < a then Ordering.lt else if b = a then .eq else .gt) =
      (if a < b then Ordering.lt else if a = b then .eq else .gt).swap := by
    intro a b
    by_cases h : a = b
    · subst h
      rw [if_neg (Rat.lt_irrefl), if_pos rfl]
      rfl
    · have hlt : a < b ∨ b < a := by grind
      rcases hlt with h' | h'
      · rw [if_neg (Rat.not_lt.mpr (Rat.le_of_lt h')), if_neg (fun e => h e.symm), if_pos h']
        rfl
      · rw [if_pos h', if_neg (Rat.not_lt.mpr (Rat.le_of_lt h')), if_neg h]
        rfl
  have int : ∀ a b : Int, compare b a = (compare a b).swap := fun a b => Std.OrientedCmp.eq_swap
  have bool : ∀ a b : Bool, compare b a = (compare a b).swap := by decide
  have flt : ∀ a b : Fl, Fl.cmp b a = (Fl.cmp a b).map Ordering.swap := by
    intro a b
    cases a <;> cases b <;> simp only [Fl.cmp, Option.map_none, Option.map_some]
    · rw [bool]
    · rename_i s _; cases s <;> rfl
    · rename_i s; cases s <;> rfl
    · rw [rat]
  cases l <;> cases r <;> simp only [cmpNum, Option.map_none, Option.map_some] <;>
    first | rw [int] | rw [rat] | exact flt _ _

/-- The same for the values that are compared as they are. -/
theorem cmpRaw_swap {l r : SVal} {t : Ty} (ht : t = .string ∨ t = .dateTime ∨ t = .guid) (hc : Common l.ty r.ty (some t)) :
    cmpRaw r l = (cmpRaw l r).swap := by
  have ints : ∀ a b, cmpInts b a = (cmpInts a b).swap := fun a b => by rw [cmpInts_eq, cmpInts_eq, cmpBy_swap]
  have strs : ∀ a b, cmpStr b a = (cmpStr a b).swap := fun a b => by rw [cmpStr_eq, cmpStr_eq, cmpBy_swap]
  have nat : ∀ a b : Nat, compare b a = (compare a b).swap := fun a b => Std.OrientedCmp.eq_swap
  have nr : rank t = none := by rcases ht with rfl | rfl | rfl <;> rfl
  have hl : l.ty = none ∨ l.ty = some t := by
    rcases (common_up hc).1 with h | h | ⟨x, m, n, hx, hm, hn, hle⟩
    · exact .inl h
    · exact .inr h
    · rw [nr] at hn; cases hn
  have hr : r.ty = none ∨ r.ty = some t := by
    rcases (common_up hc).2 with h | h | ⟨x, m, n, hx, hm, hn, hle⟩
    · exact .inl h
    · exact .inr h
    · rw [nr] at hn; cases hn
  have shape : ∀ v : SVal, (v.ty = none ∨ v.ty = some t) →
      (∃ o, v = .null o) ∨ (t = .string ∧ ∃ s, v = .string s) ∨ (t = .guid ∧ ∃ n, v = .guid n) ∨
        (t = .dateTime ∧ ∃ d h m s f, v = .dateTime d h m s f) := by
    intro v hv
    cases v with
    | null o => exact .inl ⟨o, rfl⟩
    | string s => rcases hv with h | h <;> cases h; exact .inr (.inl ⟨rfl, s, rfl⟩)
    | guid s => rcases hv with h | h <;> cases h; exact .inr (.inr (.inl ⟨rfl, s, rfl⟩))
    | dateTime d h m s f => rcases hv with h' | h' <;> cases h'; exact .inr (.inr (.inr ⟨rfl, d, h, m, s, f, rfl⟩))
    | bool | byte | sbyte | int16 | int32 | int64 | decimal | double | single | binary | time | offset =>
      rcases hv with h | h <;> cases h; rcases ht with h | h | h <;> cases h
  rcases shape l hl with ⟨o, rfl⟩ | ⟨rfl, s, rfl⟩ | ⟨rfl, n, rfl⟩ | ⟨rfl, d, h, m, s, f, rfl⟩ <;>
    rcases shape r hr with ⟨o', rfl⟩ | ⟨e, s', rfl⟩ | ⟨e, n', rfl⟩ | ⟨e, d', h', m', s', f', rfl⟩ <;>
    try (first | cases e | skip)
  all_goals simp only [cmpRaw]
  all_goals first | rfl | exact ints _ _ | exact strs _ _ | exact nat _ _

theorem eqNum_comm (l r : SVal) : eqNum l r = eqNum r l := by
  have h : ∀ l r : SVal, decide (cmpNum l r = some .eq) = decide (cmpNum r l = some .eq) := by
    intro l r
    rw [cmpNum_swap l r]
    cases cmpNum l r with
    | none => rfl
    | some o => cases o <;> rfl
  rw [eqNum.eq_def, eqNum.eq_def]
  split
  · rfl
  · split
    · rename_i hn
      exact (hn _ _ rfl rfl).elim
    · exact h l r

/-- Operands of a relation that are numbers. -/
theorem relate_num {E : Env} {op : Oper} {l r l' r' : SVal} {t : Ty} (hc : Common l.ty r.ty (some t)) (ht : t ∈ arithTypes)
    (hl : l.cast E t = .ok l') (hr : r.cast E t = .ok r') :
    relate E op (.simple l) (.simple r) = .ok (.simple (.bool (match cmpNum l' r' with
      | some o => relation op o
      | none => false))) := by
  rw [relate, promoteOperands, promote_ok.mpr hc]
  show (if t ∈ arithTypes then _ else _) = _
  rw [if_pos ht, hl]
  show Except.bind (SVal.cast E r t) _ = _
  rw [hr]
  show (match cmpNum l' r' with
    | some o => _
    | none => _) = _
  cases cmpNum l' r' <;> rfl

theorem relate_raw {E : Env} {op : Oper} {l r : SVal} {t : Ty} (hc : Common l.ty r.ty (some t))
    (ht : t = .string ∨ t = .dateTime ∨ t = .guid) :
    relate E op (.simple l) (.simple r) = .ok (.simple (.bool (relation op (cmpRaw l r)))) := by
  rw [relate, promoteOperands, promote_ok.mpr hc]
  rcases ht with rfl | rfl | rfl <;> rfl

theorem equal_num {E : Env} {W : World} {l r l' r' : SVal} {t : Ty} (hc : Common l.ty r.ty (some t)) (ht : t ∈ arithTypes)
    (hl : l.cast E t = .ok l') (hr : r.cast E t = .ok r') :
    equal E W (.simple l) (.simple r) = .ok (eqNum l' r') := by
  rw [equal, promoteOperands, promote_ok.mpr hc]
  · show (if t ∈ arithTypes then _ else _) = _
    rw [if_pos ht, hl]
    show Except.bind (SVal.cast E r t) _ = _
    rw [hr]
    rfl
  · intro a b h; cases h

theorem equal_raw {E : Env} {W : World} {l r : SVal} {t : Ty} (hc : Common l.ty r.ty (some t))
    (ht : t = .string ∨ t = .dateTime ∨ t = .guid ∨ t = .binary) :
    equal E W (.simple l) (.simple r) = .ok (eqRaw l r) := by
  rw [equal, promoteOperands, promote_ok.mpr hc]
  · rcases ht with rfl | rfl | rfl | rfl <;> rfl
  · intro a b h; cases h

end Verif.OData.Eval
