import Verif.Lemmas.Qti
import Verif.Props.QtiLogic

/-!
# Type safety of QTI evaluation

Evaluating an expression in a session whose variables are well typed gives a well typed value.
-/

namespace Verif.Props

open Verif Verif.Qti Verif.Spec

set_option linter.unusedVariables false

/-! ## Monadic steps -/

theorem bind_ok {α β} {x : Except Err α} {f : α → Except Err β} {b : β} (h : x >>= f = .ok b) :
    ∃ a, x = .ok a ∧ f a = .ok b := by
  cases x with
  | error e => cases h
  | ok a => exact ⟨a, rfl, h⟩

theorem int32_fits (i : Int) : int32 i = true ↔ Fits i := by
  simp [int32, Fits]

/-! ## Single values -/

theorem sortPair_typed (a b : Str) (ha : Names.isValidNCName a = true) (hb : Names.isValidNCName b = true) :
    HasType .pair (sortPair a b) := by
  unfold sortPair
  split
  · rename_i h
    exact .pair b a hb ha (List.lt_asymm h)
  · rename_i h
    exact .pair a b ha hb h

theorem fromText_typed {bt : BaseType} {s : Str} {a : Atom} (h : fromText bt s = .ok (some a)) :
    HasType bt a := by
  cases bt with
  | boolean =>
    obtain ⟨b, _, h⟩ := bind_ok h
    cases h; exact .boolean b
  | directedPair =>
    simp only [fromText] at h
    split at h
    · split at h
      · rename_i hv; cases h; exact .directedPair _ _ hv.1 hv.2
      · cases h
    · cases h
  | pair =>
    simp only [fromText] at h
    split at h
    · split at h
      · rename_i hv
        have := Option.some.inj (Except.ok.inj h)
        subst this
        exact sortPair_typed _ _ hv.1 hv.2
      · cases h
    · cases h
  | duration =>
    obtain ⟨b, _, h⟩ := bind_ok h
    cases h; exact .duration b
  | float =>
    obtain ⟨b, _, h⟩ := bind_ok h
    cases h; exact .float b
  | file => cases h
  | identifier =>
    simp only [fromText] at h
    split at h
    · rename_i hv; cases h; exact .identifier _ hv
    · cases h
  | integer =>
    obtain ⟨b, _, h⟩ := bind_ok h
    cases h; exact .integer b
  | point =>
    obtain ⟨l, _, h⟩ := bind_ok h
    split at h
    · split at h
      · rename_i hv; cases h; exact .point _ _ ((int32_fits _).mp hv.1) ((int32_fits _).mp hv.2)
      · cases h
    · cases h
  | string =>
    simp only [fromText] at h
    split at h
    · cases h
    · rename_i hs; cases h; exact .string _ hs
  | uri => cases h; exact .uri _

theorem fromAtom_typed {bt bt' : BaseType} {a b : Atom} (ha : HasType bt' a) (h : fromAtom bt a = .ok (some b)) :
    HasType bt b := by
  unfold fromAtom at h
  split at h
  · cases h; exact .boolean _
  · cases h; exact .boolean _
  · cases h
    cases ha with
    | directedPair _ _ h1 h2 => exact .directedPair _ _ h1 h2
    | pair _ _ h1 h2 _ => exact .directedPair _ _ h1 h2
  · split at h
    · rename_i hv
      have := Option.some.inj (Except.ok.inj h)
      subst this
      exact sortPair_typed _ _ hv.1 hv.2
    · cases h
  · cases h; exact .duration _
  · cases h; exact .float _
  · cases h
  · split at h
    · cases h; exact .integer _
    · cases h
  · split at h
    · rename_i hv; cases h; exact .point _ _ ((int32_fits _).mp hv.1) ((int32_fits _).mp hv.2)
    · cases h
  · exact fromText_typed h
  · cases h

theorem fromAtom_inRange {bt bt' : BaseType} {a b : Atom} (ha : HasType bt' a)
    (hs : bt = bt' ∨ bt' ≠ .identifier ∧ bt' ≠ .string ∧ bt' ≠ .uri)
    (h : fromAtom bt a = .ok (some b)) : InRange b := by
  unfold fromAtom at h
  split at h
  · cases h; exact trivial
  · cases h; exact trivial
  · cases h; exact trivial
  · split at h
    · have := Option.some.inj (Except.ok.inj h)
      subst this
      unfold sortPair
      split <;> exact trivial
    · cases h
  · cases h; exact trivial
  · cases h; exact trivial
  · cases h
  · split at h
    · rename_i hv; cases h; exact (int32_fits _).mp hv
    · cases h
  · split at h
    · cases h; exact trivial
    · cases h
  · rename_i s _
    have hb := fromText_typed h
    cases ha with
    | identifier _ _ =>
      rcases hs with hs | hs
      · subst hs; cases hb; exact trivial
      · exact absurd rfl hs.1
    | string _ _ =>
      rcases hs with hs | hs
      · subst hs; cases hb; exact trivial
      · exact absurd rfl hs.2.1
    | uri _ =>
      rcases hs with hs | hs
      · subst hs; cases hb; exact trivial
      · exact absurd rfl hs.2.2
  · cases h

/-- A value of the base type is kept as it is. -/
theorem fromAtom_same {bt : BaseType} {a : Atom} (ha : HasType bt a) (hr : InRange a) :
    fromAtom bt a = .ok (some a) := by
  cases ha with
  | boolean b => rfl
  | directedPair a b h1 h2 => rfl
  | duration q => rfl
  | float q => rfl
  | identifier s h =>
    show fromText .identifier s = _
    simp only [fromText, h, if_true]
  | integer i =>
    simp only [fromAtom]
    rw [if_pos ((int32_fits i).mpr hr)]
  | pair a b h1 h2 h3 =>
    simp only [fromAtom, sortPair]
    rw [if_pos ⟨h1, h2⟩, if_neg h3]
  | point x y h1 h2 =>
    simp only [fromAtom]
    rw [if_pos ⟨(int32_fits x).mpr h1, (int32_fits y).mpr h2⟩]
  | string s h =>
    show fromText .string s = _
    simp only [fromText]
    rw [if_neg h]
  | uri s => rfl

theorem newSingle_typed {bt : Option BaseType} {s : Str} {v : Value} (h : newSingle bt s = .ok v) : WellTyped v := by
  cases bt with
  | none => cases h; exact .null _
  | some b =>
    obtain ⟨w, hw, h⟩ := bind_ok h
    cases h
    cases w with
    | none => exact .null _
    | some a => exact .single (fromText_typed hw)

theorem newNull_typed {bt : Option BaseType} {v : Value} (h : newNull bt = .ok v) : WellTyped v := by
  unfold newNull at h
  split at h
  · cases h
  · cases h; exact .null _

theorem setSingle_typed {bt bt' : BaseType} {a : Atom} {v : Value} (ha : HasType bt' a)
    (h : setSingle bt (some a) = .ok v) : WellTyped v := by
  obtain ⟨w, hw, h⟩ := bind_ok h
  cases h
  cases w with
  | none => exact .null _
  | some b => exact .single (fromAtom_typed ha hw)

theorem boolV_typed (b : Option Bool) : WellTyped (boolV b) := by
  cases b with
  | none => exact .null _
  | some b => exact .single (.boolean b)

theorem floatV_typed (b : Option Rat) : WellTyped (floatV b) := by
  cases b with
  | none => exact .null _
  | some b => exact .single (.float b)

theorem intV_typed {i : Option Int} {v : Value} (h : intV i = .ok v) : WellTyped v := by
  cases i with
  | none => cases h; exact .null _
  | some i =>
    simp only [intV] at h
    split at h
    · cases h; exact .single (.integer i)
    · cases h

/-! ## Containers -/

/-- Every member has the base type and is in range. -/
def AllTyped (bt : Option BaseType) (as : List Atom) : Prop :=
  ∀ a ∈ as, ∃ b, bt = some b ∧ HasType b a ∧ InRange a

theorem containerOf_typed (bt : Option BaseType) : ∀ (as : List Atom) (ws : List Atom),
    (∀ a ∈ as, ∃ b, bt = some b ∧ HasType b a) → containerOf bt as = .ok ws → AllTyped bt ws
  | [], ws, _, h => by cases h; intro a ha; cases ha
  | a :: as, ws, ht, h => by
    obtain ⟨b, rfl, hab⟩ := ht a (List.mem_cons_self ..)
    simp only [containerOf] at h
    obtain ⟨v, hv, h⟩ := bind_ok h
    obtain ⟨vs, hvs, h⟩ := bind_ok h
    cases h
    have ih := containerOf_typed (some b) as vs (fun x hx => ht x (List.mem_cons_of_mem _ hx)) hvs
    intro x hx
    rcases List.mem_append.mp hx with hx | hx
    · cases v with
      | none => cases hx
      | some y =>
        simp at hx
        subst hx
        exact ⟨b, rfl, fromAtom_typed hab hv, fromAtom_inRange hab (Or.inl rfl) hv⟩
    · exact ih x hx

/-- Members of the right type are kept as they are. -/
theorem containerOf_same {bt : Option BaseType} : ∀ {as : List Atom}, AllTyped bt as → containerOf bt as = .ok as
  | [], _ => rfl
  | a :: as, h => by
    obtain ⟨b, rfl, h1, h2⟩ := h a (List.mem_cons_self ..)
    have ih := containerOf_same (bt := some b) (as := as) (fun x hx => h x (List.mem_cons_of_mem _ hx))
    simp only [containerOf, fromAtom_same h1 h2, ih, bind, Except.bind]
    rfl

theorem typed_members {v : Value} (h : WellTyped v) : ∀ a ∈ members v, ∃ b, v.bt = some b ∧ HasType b a := by
  cases h with
  | single h =>
    intro a ha
    simp [members] at ha
    subst ha
    exact ⟨_, rfl, h⟩
  | ordered h => intro a ha; obtain ⟨b, h1, h2, _⟩ := h a ha; exact ⟨b, h1, h2⟩
  | multiple h => intro a ha; obtain ⟨b, h1, h2, _⟩ := h a ha; exact ⟨b, h1, h2⟩
  | _ => intro a ha; cases ha

theorem gather_typed (inner : Card) : ∀ (vs : List Value) (bt bt' : Option BaseType) (as : List Atom),
    (∀ v ∈ vs, WellTyped v) → gather inner bt vs = .ok (bt', as) →
    (∀ c, bt = some c → bt' = some c) ∧ ∀ a ∈ as, ∃ b, bt' = some b ∧ HasType b a
  | [], bt, bt', as, _, h => by
    cases h
    exact ⟨fun _ h => h, fun a ha => by cases ha⟩
  | v :: vs, bt, bt', as, ht, h => by
    have htl : ∀ w ∈ vs, WellTyped w := fun w hw => ht w (List.mem_cons_of_mem _ hw)
    have hv := typed_members (ht v (List.mem_cons_self ..))
    unfold gather at h
    split at h
    · exact gather_typed inner vs bt bt' as htl h
    · rename_i c hc
      split at h
      · cases h
      · rename_i hbt
        have key : ∀ as', gather inner (some c) vs = .ok (bt', as') →
            (∀ d, bt = some d → bt' = some d) ∧ bt' = some c ∧ ∀ a ∈ as', ∃ b, bt' = some b ∧ HasType b a := by
          intro as' h'
          have ⟨h1, h2⟩ := gather_typed inner vs (some c) bt' as' htl h'
          refine ⟨?_, h1 c rfl, h2⟩
          intro d hd
          rw [h1 c rfl]
          refine Decidable.byContradiction fun hne => hbt ⟨by simp [hd], ?_⟩
          rw [hd]
          exact fun e => hne (e ▸ rfl)
        have key2 : ∀ bs, members v = bs → (gather inner (some c) vs >>= fun r => .ok (r.1, bs ++ r.2)) = .ok (bt', as) →
            (∀ c, bt = some c → bt' = some c) ∧ ∀ a ∈ as, ∃ b, bt' = some b ∧ HasType b a := by
          intro bs hbs h
          obtain ⟨⟨b, as'⟩, hr, h⟩ := bind_ok h
          cases h
          have ⟨h1, h2, h3⟩ := key as' hr
          refine ⟨h1, ?_⟩
          intro a ha
          rcases List.mem_append.mp ha with ha | ha
          · rw [← hbs] at ha
            obtain ⟨b', hb1, hb2⟩ := hv a ha
            rw [hc] at hb1
            cases hb1
            exact ⟨c, h2, hb2⟩
          · exact h3 a ha
        split at h
        · exact ⟨(key as h).1, (key as h).2.2⟩
        · split at h
          · exact key2 [_] rfl h
          · split at h
            · exact key2 _ rfl h
            · cases h
          · split at h
            · exact key2 _ rfl h
            · cases h
          · cases h

theorem newContainer_typed {card : Option Card} {bt : Option BaseType} {v : Value}
    (h : newContainer card bt = .ok v) : WellTyped v := by
  unfold newContainer at h
  split at h
  · cases h
  · cases h; exact .ordered (by intro a ha; cases ha)
  · cases h; exact .multiple (by intro a ha; cases ha)
  · cases h; exact .record (by intro a ha; cases ha)
  · cases h; exact .container _

theorem filter_typed {bt : Option BaseType} {as : List Atom} (p : Atom → Bool) (h : AllTyped bt as) :
    AllTyped bt (as.filter p) := fun a ha => h a (List.mem_filter.mp ha).1

theorem evalDelete_typed {s c v : Value} (hc : WellTyped c) (h : evalDelete s c = .ok v) : WellTyped v := by
  unfold evalDelete at h
  split at h
  · exact newContainer_typed h
  split at h
  · exact newContainer_typed h
  split at h
  · cases h
  split at h
  · cases h
  split at h
  · cases h
  split at h
  · cases h
  split at h
  · rw [containerOf_same (filter_typed _ (by cases hc with | ordered h => exact h))] at h
    cases h
    exact .ordered (filter_typed _ (by cases hc with | ordered h => exact h))
  · rw [containerOf_same (filter_typed _ (by cases hc with | multiple h => exact h))] at h
    cases h
    exact .multiple (filter_typed _ (by cases hc with | multiple h => exact h))
  · exact newContainer_typed h

theorem fold_typed {q0 : Rat} {qf : Rat → Rat → Rat} {i0 : Int} {f : Int → Int → Int} {vs : List Value} {v : Value}
    (h : fold q0 qf i0 f vs = .ok v) : WellTyped v := by
  unfold fold at h
  by_cases hl : vs.length < 1
  · rw [if_pos hl] at h
    cases h
  · rw [if_neg hl] at h
    obtain ⟨_, _, h⟩ := bind_ok h
    obtain ⟨_, _, h⟩ := bind_ok h
    split at h
    · cases h; exact .null _
    · split at h <;> (cases h; exact floatV_typed _)
    · split at h <;> exact intV_typed h

theorem pick_typed {bt : Option BaseType} {as : List Atom} {draw : Nat} {v : Value} (ht : AllTyped bt as)
    (h : applyOp.pick bt as draw = .ok v) : WellTyped v := by
  unfold applyOp.pick at h
  obtain ⟨r, hr, h⟩ := bind_ok h
  cases hg : as[draw % as.length]? with
  | none =>
    rw [hg] at h
    cases h; exact newNull_typed hr
  | some a =>
    rw [hg] at h
    obtain ⟨b, rfl, h2, _⟩ := ht a (List.mem_of_getElem? hg)
    exact setSingle_typed h2 h

theorem one_mem {vs : List Value} {v : Value} (h : one vs = .ok v) : v ∈ vs := by
  unfold one at h
  split at h
  · cases h; exact List.mem_cons_self ..
  · cases h
  · cases h

theorem two_mem {vs : List Value} {a b : Value} (h : two vs = .ok (a, b)) : a ∈ vs ∧ b ∈ vs := by
  unfold two at h
  split at h
  · cases h; simp
  · cases h

theorem compareNum_typed (f : Rat → Rat → Bool) (a b : Value) : WellTyped (compareNum f a b) := by
  unfold compareNum
  split <;> exact boolV_typed _

/-- The value of an operator is well typed if those of the operands are. -/
theorem applyOp_typed (op : Op) (vs : List Value) (v : Value) (hv : ∀ v ∈ vs, WellTyped v)
    (h : applyOp op vs = .ok v) : WellTyped v := by
  cases op with
  | multiple =>
    simp only [applyOp] at h
    obtain ⟨⟨bt, as⟩, h1, h⟩ := bind_ok h
    obtain ⟨ws, h2, h⟩ := bind_ok h
    cases h
    exact .multiple (containerOf_typed bt as ws (gather_typed .multiple vs none bt as hv h1).2 h2)
  | ordered =>
    simp only [applyOp] at h
    obtain ⟨⟨bt, as⟩, h1, h⟩ := bind_ok h
    obtain ⟨ws, h2, h⟩ := bind_ok h
    cases h
    exact .ordered (containerOf_typed bt as ws (gather_typed .ordered vs none bt as hv h1).2 h2)
  | containerSize =>
    simp only [applyOp] at h
    obtain ⟨w, h1, h⟩ := bind_ok h
    split at h
    · exact intV_typed h
    · exact intV_typed h
    · cases h
  | isNull =>
    simp only [applyOp] at h
    obtain ⟨w, h1, h⟩ := bind_ok h
    cases h; exact boolV_typed _
  | index n =>
    simp only [applyOp] at h
    obtain ⟨w, h1, h⟩ := bind_ok h
    have hw := hv w (one_mem h1)
    split at h
    · rename_i bt as
      obtain ⟨r, hr, h⟩ := bind_ok h
      split at h
      · cases h; exact newNull_typed hr
      · split at h
        · cases h
        · split at h
          · cases h
          · rename_i n _ _ _
            cases hg : as[n.toNat - 1]? with
            | none =>
              rw [hg] at h
              cases h; exact newNull_typed hr
            | some a =>
              rw [hg] at h
              cases hw with
              | ordered ht =>
                obtain ⟨b, rfl, h2, _⟩ := ht a (List.mem_of_getElem? hg)
                exact setSingle_typed h2 h
    · cases h
  | fieldValue i =>
    simp only [applyOp] at h
    obtain ⟨w, h1, h⟩ := bind_ok h
    have hw := hv w (one_mem h1)
    split at h
    · split at h
      · rename_i hg
        cases h
        cases hw with
        | record hf => exact .single (hf _ (Dict.mem_of_get hg))
      · cases h; exact .null _
    · cases h
  | random draw =>
    simp only [applyOp] at h
    obtain ⟨w, h1, h⟩ := bind_ok h
    have hw := hv w (one_mem h1)
    split at h
    · cases hw with | ordered ht => exact pick_typed ht h
    · cases hw with | multiple ht => exact pick_typed ht h
    · cases h; exact .null _
    · cases h; exact .null _
    · cases h
  | member =>
    simp only [applyOp] at h
    obtain ⟨⟨a, b⟩, h1, h⟩ := bind_ok h
    unfold evalMember at h
    repeat' (first | (cases h; done) | (cases h; exact boolV_typed _) | split at h)
  | delete =>
    simp only [applyOp] at h
    obtain ⟨⟨a, b⟩, h1, h⟩ := bind_ok h
    exact evalDelete_typed (hv b (two_mem h1).2) h
  | contains =>
    simp only [applyOp] at h
    obtain ⟨⟨a, b⟩, h1, h⟩ := bind_ok h
    unfold evalContains at h
    obtain ⟨_, _, h⟩ := bind_ok h
    obtain ⟨_, _, h⟩ := bind_ok h
    repeat' (first | (cases h; done) | (cases h; exact boolV_typed _) | split at h)
  | not =>
    simp only [applyOp] at h
    obtain ⟨w, h1, h⟩ := bind_ok h
    obtain ⟨_, _, h⟩ := bind_ok h
    obtain ⟨_, _, h⟩ := bind_ok h
    cases h; exact boolV_typed _
  | and =>
    simp only [applyOp] at h
    obtain ⟨_, _, h⟩ := bind_ok h
    cases h; exact boolV_typed _
  | or =>
    simp only [applyOp] at h
    obtain ⟨_, _, h⟩ := bind_ok h
    cases h; exact boolV_typed _
  | anyN min max =>
    simp only [applyOp] at h
    obtain ⟨_, _, h⟩ := bind_ok h
    obtain ⟨_, _, h⟩ := bind_ok h
    obtain ⟨_, _, h⟩ := bind_ok h
    cases h; exact boolV_typed _
  | «match» =>
    simp only [applyOp] at h
    obtain ⟨⟨a, b⟩, h1, h⟩ := bind_ok h
    obtain ⟨_, _, h⟩ := bind_ok h
    cases h; exact boolV_typed _
  | substring cs =>
    simp only [applyOp] at h
    obtain ⟨⟨a, b⟩, h1, h⟩ := bind_ok h
    obtain ⟨_, _, h⟩ := bind_ok h
    obtain ⟨_, _, h⟩ := bind_ok h
    repeat' (first | (cases h; exact boolV_typed _) | split at h)
  | stringMatch cs sub =>
    simp only [applyOp] at h
    obtain ⟨⟨a, b⟩, h1, h⟩ := bind_ok h
    obtain ⟨_, _, h⟩ := bind_ok h
    obtain ⟨_, _, h⟩ := bind_ok h
    split at h
    · cases sub
      · cases h; exact boolV_typed _
      · cases h; exact boolV_typed _
    · cases h; exact boolV_typed _
  | patternMatch p => cases h
  | equal mode tol il iu =>
    simp only [applyOp] at h
    obtain ⟨⟨a, b, _⟩, h1, h⟩ := bind_ok h
    dsimp only at h
    split at h
    · obtain ⟨_, _, h⟩ := bind_ok h
      cases h; exact boolV_typed _
    · cases h; exact boolV_typed _
  | equalRounded => cases h
  | inside shape coords =>
    simp only [applyOp] at h
    obtain ⟨w, h1, h⟩ := bind_ok h
    obtain ⟨_, _, h⟩ := bind_ok h
    split at h
    · cases h; exact boolV_typed _
    · obtain ⟨_, _, h⟩ := bind_ok h
      cases h; exact boolV_typed _
    · split at h
      · cases h; exact boolV_typed _
      · obtain ⟨_, _, h⟩ := bind_ok h
        cases h; exact boolV_typed _
    · split at h
      · cases h; exact boolV_typed _
      · obtain ⟨_, _, h⟩ := bind_ok h
        cases h; exact boolV_typed _
    · cases h
    · cases h; exact boolV_typed _
  | lt =>
    obtain ⟨⟨a, b, _⟩, h1, h⟩ := bind_ok h
    cases h; exact compareNum_typed ..
  | gt =>
    obtain ⟨⟨a, b, _⟩, h1, h⟩ := bind_ok h
    cases h; exact compareNum_typed ..
  | lte =>
    obtain ⟨⟨a, b, _⟩, h1, h⟩ := bind_ok h
    cases h; exact compareNum_typed ..
  | gte =>
    obtain ⟨⟨a, b, _⟩, h1, h⟩ := bind_ok h
    cases h; exact compareNum_typed ..
  | durationLT =>
    obtain ⟨⟨a, b⟩, h1, h⟩ := bind_ok h
    obtain ⟨_, _, h⟩ := bind_ok h
    obtain ⟨_, _, h⟩ := bind_ok h
    cases h; exact compareNum_typed ..
  | durationGTE =>
    obtain ⟨⟨a, b⟩, h1, h⟩ := bind_ok h
    obtain ⟨_, _, h⟩ := bind_ok h
    obtain ⟨_, _, h⟩ := bind_ok h
    cases h; exact compareNum_typed ..
  | sum => exact fold_typed h
  | product => exact fold_typed h
  | subtract =>
    simp only [applyOp] at h
    obtain ⟨⟨a, b, _⟩, h1, h⟩ := bind_ok h
    dsimp only at h
    split at h
    · cases h; exact .null _
    · split at h <;> (cases h; exact floatV_typed _)
    · split at h <;> exact intV_typed h
  | divide =>
    simp only [applyOp] at h
    obtain ⟨⟨a, b, _⟩, h1, h⟩ := bind_ok h
    dsimp only at h
    split at h
    · split at h <;> (cases h; exact floatV_typed _)
    · cases h; exact floatV_typed _
  | power => cases h
  | integerDivide =>
    simp only [applyOp] at h
    obtain ⟨⟨a, b⟩, h1, h⟩ := bind_ok h
    dsimp only at h
    split at h
    · split at h <;> exact intV_typed h
    · exact intV_typed h
  | integerModulus =>
    simp only [applyOp] at h
    obtain ⟨⟨a, b⟩, h1, h⟩ := bind_ok h
    dsimp only at h
    split at h
    · split at h <;> exact intV_typed h
    · exact intV_typed h
  | truncate =>
    simp only [applyOp] at h
    obtain ⟨w, h1, h⟩ := bind_ok h
    obtain ⟨_, _, h⟩ := bind_ok h
    obtain ⟨_, _, h⟩ := bind_ok h
    split at h <;> exact intV_typed h
  | round =>
    simp only [applyOp] at h
    obtain ⟨w, h1, h⟩ := bind_ok h
    obtain ⟨_, _, h⟩ := bind_ok h
    obtain ⟨_, _, h⟩ := bind_ok h
    split at h <;> exact intV_typed h
  | integerToFloat =>
    simp only [applyOp] at h
    obtain ⟨w, h1, h⟩ := bind_ok h
    obtain ⟨_, _, h⟩ := bind_ok h
    obtain ⟨_, _, h⟩ := bind_ok h
    split at h <;> (cases h; exact floatV_typed _)
  | custom => cases h

theorem declared_ok {α} {r : Except Err α} {a : α} (h : declared r = .ok a) : r = .ok a := by
  unfold declared at h
  split at h
  · cases h
  · exact h

theorem get_typed {st : State} (hst : GoodState st) {n : Str} {v : Value} (h : st.get n = .ok v) : WellTyped v := by
  unfold State.get at h
  split at h
  · rename_i hg
    cases h
    exact hst _ (Dict.mem_of_get hg)
  · cases h

theorem mapValue_typed {m : Mapping} {w v : Value} (h : m.mapValue w = .ok v) : WellTyped v := by
  unfold Mapping.mapValue at h
  obtain ⟨_, _, h⟩ := bind_ok h
  dsimp only at h
  split at h <;> (cases h; exact floatV_typed _)

theorem areaMapValue_typed {m : AreaMapping} {x y : Option Int} {w v : Value} (h : m.mapValue x y w = .ok v) :
    WellTyped v := by
  unfold AreaMapping.mapValue at h
  obtain ⟨_, _, h⟩ := bind_ok h
  by_cases hb : w.bt ≠ none ∧ w.bt ≠ some .point
  · rw [if_pos hb] at h
    cases h
  · rw [if_neg hb] at h
    obtain ⟨_, _, h⟩ := bind_ok h
    split at h <;> (cases h; exact floatV_typed _)

theorem evalLeaf_typed {st : State} (hst : GoodState st) (l : Leaf) {v : Value} (h : evalLeaf st l = .ok v) :
    WellTyped v := by
  cases l with
  | baseValue bt text => exact newSingle_typed (bt := some bt) h
  | «variable» i => exact get_typed hst (declared_ok h)
  | default i =>
    obtain ⟨_, _, h⟩ := bind_ok (declared_ok h)
    exact get_typed hst h
  | correct i =>
    obtain ⟨_, _, h⟩ := bind_ok (declared_ok h)
    exact get_typed hst h
  | mapResponse i =>
    obtain ⟨d, _, h⟩ := bind_ok (declared_ok h)
    split at h
    · cases h
    · obtain ⟨w, _, h⟩ := bind_ok h
      exact mapValue_typed h
  | mapResponsePoint i =>
    obtain ⟨d, _, h⟩ := bind_ok (declared_ok h)
    split at h
    · cases h
    · split at h
      · cases h
      · obtain ⟨w, _, h⟩ := bind_ok h
        exact areaMapValue_typed h
  | null => cases h; exact .unknown
  | randomInteger min max step draw =>
    obtain ⟨_, _, h⟩ := bind_ok h
    obtain ⟨_, _, h⟩ := bind_ok h
    obtain ⟨_, _, h⟩ := bind_ok h
    split at h
    · cases h
    · obtain ⟨_, _, h⟩ := bind_ok h
      exact intV_typed h
  | randomFloat min max draw =>
    obtain ⟨_, _, h⟩ := bind_ok h
    obtain ⟨_, _, h⟩ := bind_ok h
    cases h
    exact floatV_typed _

theorem eval_node (st : State) (op : Op) (args : List Expr) (hop : op ≠ .custom) :
    eval st (.node op args) = evalAll st args >>= applyOp op := by
  rw [eval]
  exact fun e => hop e

mutual
/-- Evaluation in a session whose variables are well typed gives a well typed value. -/
theorem eval_typed (st : State) (hst : GoodState st) : ∀ (e : Expr) (v : Value), eval st e = .ok v → WellTyped v
  | .leaf l, v, h => by
    rw [eval] at h
    exact evalLeaf_typed hst l h
  | .node op args, v, h => by
    have : ∃ vs, evalAll st args = .ok vs ∧ applyOp op vs = .ok v := by
      by_cases hop : op = .custom
      · subst hop
        cases h
      · rw [eval_node st op args hop] at h
        exact bind_ok h
    obtain ⟨vs, h1, h2⟩ := this
    exact applyOp_typed op vs v (evalAll_typed st hst args vs h1) h2
/-- The same for several expressions. -/
theorem evalAll_typed (st : State) (hst : GoodState st) : ∀ (es : List Expr) (vs : List Value),
    evalAll st es = .ok vs → ∀ v ∈ vs, WellTyped v
  | [], vs, h => by
    cases h
    intro v hv
    cases hv
  | e :: es, vs, h => by
    rw [evalAll] at h
    obtain ⟨v, h1, h⟩ := bind_ok h
    obtain ⟨ws, h2, h⟩ := bind_ok h
    cases h
    intro w hw
    rcases List.mem_cons.mp hw with rfl | hw
    · exact eval_typed st hst e _ h1
    · exact evalAll_typed st hst es ws h2 w hw
end

end Verif.Props
