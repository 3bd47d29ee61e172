import Verif.Lemmas.TestSession

/-!
# Lemmas on durations of test sessions
-/

set_option linter.unusedVariables false

namespace Verif.TestSession

open Verif Verif.Spec.TestSession

variable {σ π : Type}

/-- The places that get time, from the components before, the nearest first. -/
def touch (get : Str → Option (Node σ)) : List Str → Nat → List Nat
  | [], _ => []
  | id :: l, k =>
    if id.head? = some '-' then touch get l (k + 1)
    else match get id with
      | none => []
      | some n => if n.kind = .item then touch get l k
        else if k = 0 then (l.length + 1) :: touch get l 0 else touch get l (k - 1)

/-- A component that is known, or closes. -/
def Good (get : Str → Option (Node σ)) (id : Str) : Prop :=
  (∃ name, id = '-' :: name) ∨ (Plain id ∧ ∃ n, get id = some n)

theorem touch_lt (get : Str → Option (Node σ)) : ∀ (l : List Str) (k p : Nat), p ∈ touch get l k → 1 ≤ p ∧ p ≤ l.length
  | [], _, p, h => by simp [touch] at h
  | id :: l, k, p, h => by
    unfold touch at h
    split at h
    · have := touch_lt get l _ p h; simp only [List.length_cons]; omega
    · split at h
      · simp at h
      · split at h
        · have := touch_lt get l _ p h; simp only [List.length_cons]; omega
        · split at h
          · rcases List.mem_cons.1 h with rfl | h
            · simp
            · have := touch_lt get l _ p h; simp only [List.length_cons]; omega
          · have := touch_lt get l _ p h; simp only [List.length_cons]; omega

theorem addOpen_touch (get : Str → Option (Node σ)) (form : List Str) (dt : Rat) : ∀ (l : List Str) (k : Nat)
    (d : Nat → Option Rat) (x : List Str), form = [] :: (l.reverse ++ x) → (∀ id ∈ l, Good get id) →
    addOpen get form dt (l.length + 1) k d =
      (fun p => if p ∈ touch get l k then some ((d p).getD 0 + dt) else d p, none)
  | [], k, d, x, _, _ => by simp [addOpen, touch]
  | id :: l, k, d, x, hf, hg => by
    have hget : form[l.length + 1]? = some id := by
      rw [hf]
      simp
    have hf' : form = [] :: (l.reverse ++ (id :: x)) := by rw [hf]; simp
    have hg' : ∀ y ∈ l, Good get y := fun y hy => hg y (List.mem_cons_of_mem _ hy)
    rw [List.length_cons, addOpen, hget]
    rcases hg id (List.mem_cons_self ..) with ⟨name, rfl⟩ | ⟨hp, n, hn⟩
    · simp only [if_true]
      rw [addOpen_touch get form dt l (k + 1) d _ hf' hg']
      rw [show touch get (('-' :: name) :: l) k = touch get l (k + 1) from by rw [touch]; exact if_pos rfl]
    · cases id with
      | nil => exact absurd rfl hp.1
      | cons c name =>
        have hc : c ≠ '-' := fun e => hp.2 (by rw [e]; rfl)
        simp only [if_neg hc, hn]
        have ht : touch get ((c :: name) :: l) k = if n.kind = .item then touch get l k
            else if k = 0 then (l.length + 1) :: touch get l 0 else touch get l (k - 1) := by
          rw [touch, if_neg hp.2, hn]
        rw [ht]
        by_cases hk : n.kind = .item
        · simp only [if_pos hk]
          exact addOpen_touch get form dt l k d _ hf' hg'
        · simp only [if_neg hk]
          by_cases h0 : k = 0
          · simp only [if_pos h0]
            rw [addOpen_touch get form dt l 0 _ _ hf' hg']
            congr 1
            funext p
            by_cases hp' : p = l.length + 1
            · subst hp'
              have : l.length + 1 ∉ touch get l 0 := fun h => by have := touch_lt get l 0 _ h; omega
              simp [this]
            · simp [hp']
          · simp only [if_neg h0]
            exact addOpen_touch get form dt l (k - 1) d _ hf' hg'

theorem balanced_good {get : Str → Option (Node σ)} {v : List Str} (h : Balanced get v) : ∀ id ∈ v, Good get id := by
  induction h with
  | nil => simp
  | item hp hg hk _ ih =>
    intro y hy
    rcases List.mem_cons.1 hy with rfl | hy
    · exact .inr ⟨hp, _, hg⟩
    · exact ih y hy
  | group hp hg hk _ _ ih1 ih2 =>
    intro y hy
    simp only [List.cons_append, List.mem_cons, List.mem_append] at hy
    rcases hy with rfl | hy | rfl | hy
    · exact .inr ⟨hp, _, hg⟩
    · exact ih1 y hy
    · exact .inl ⟨_, rfl⟩
    · exact ih2 y hy

theorem touch_item {get : Str → Option (Node σ)} {id : Str} {n : Node σ} (hp : Plain id) (hg : get id = some n)
    (hk : n.kind = .item) (l : List Str) (k : Nat) : touch get (id :: l) k = touch get l k := by
  rw [touch, if_neg hp.2, hg]
  exact if_pos hk

theorem touch_open {get : Str → Option (Node σ)} {id : Str} {n : Node σ} (hp : Plain id) (hg : get id = some n)
    (hk : n.kind ≠ .item) (l : List Str) (k : Nat) :
    touch get (id :: l) k = if k = 0 then (l.length + 1) :: touch get l 0 else touch get l (k - 1) := by
  rw [touch, if_neg hp.2, hg]
  exact if_neg hk

theorem touch_close (get : Str → Option (Node σ)) (id : Str) (l : List Str) (k : Nat) :
    touch get (closing id :: l) k = touch get l (k + 1) := by
  rw [touch]
  exact if_pos rfl

theorem touch_balanced {get : Str → Option (Node σ)} {v : List Str} (h : Balanced get v) :
    ∀ (l : List Str) (k : Nat), touch get (v.reverse ++ l) k = touch get l k := by
  induction h with
  | nil => intro l k; rfl
  | item hp hg hk _ ih =>
    intro l k
    rename_i id n rest _
    rw [List.reverse_cons, List.append_assoc, ih]
    exact touch_item hp hg hk l k
  | group hp hg hk _ _ ih1 ih2 =>
    intro l k
    rename_i id n inner rest _ _
    have : (id :: inner ++ closing id :: rest).reverse ++ l = rest.reverse ++ (closing id :: (inner.reverse ++ (id :: l))) := by
      simp
    rw [this, ih2, touch_close, ih1, touch_open hp hg hk, if_neg (by omega)]
    rfl

/-- A place in a prefix `i1` of balanced components that gets time is that of a group around the end of `i1`; and what
got time before still does. -/
theorem touch_prefix {get : Str → Option (Node σ)} {v : List Str} (h : Balanced get v) : ∀ (i1 i2 l : List Str),
    v = i1 ++ i2 → (∀ p ∈ touch get l 0, p ∈ touch get (i1.reverse ++ l) 0) ∧
    ∀ p ∈ touch get (i1.reverse ++ l) 0, p ∈ touch get l 0 ∨ ∃ a id n inner b, v = a ++ id :: (inner ++ closing id :: b) ∧
      Plain id ∧ get id = some n ∧ n.kind ≠ .item ∧ Balanced get inner ∧ p = l.length + 1 + a.length ∧
      a.length < i1.length ∧ i1.length ≤ a.length + 1 + inner.length := by
  induction h with
  | nil =>
    intro i1 i2 l h
    have : i1 = [] := (List.append_eq_nil_iff.1 h.symm).1
    subst this
    exact ⟨fun p h => h, fun p h => .inl h⟩
  | item hp hg hk _ ih =>
    intro i1 i2 l h
    rename_i id n rest _
    cases i1 with
    | nil => exact ⟨fun p h => h, fun p h => .inl h⟩
    | cons c i1 =>
      rw [List.cons_append] at h
      injection h with h1 h2
      subst h1
      obtain ⟨k1, k2⟩ := ih i1 i2 (id :: l) h2
      rw [touch_item hp hg hk] at k1 k2
      rw [List.reverse_cons, List.append_assoc]
      refine ⟨k1, fun p hp' => ?_⟩
      rcases k2 p hp' with h | ⟨a, id', n', inner, b, e1, e2, e3, e4, e5, e6, e7, e8⟩
      · exact .inl h
      · refine .inr ⟨id :: a, id', n', inner, b, by rw [e1]; rfl, e2, e3, e4, e5, ?_, ?_, ?_⟩
        · simp only [List.length_cons] at e6 ⊢; omega
        · simp only [List.length_cons]; omega
        · simp only [List.length_cons]; omega
  | group hp hg hk hin hre ih1 ih2 =>
    intro i1 i2 l h
    rename_i id n inner rest
    cases i1 with
    | nil => exact ⟨fun p h => h, fun p h => .inl h⟩
    | cons c i1 =>
      rw [List.cons_append, List.cons_append] at h
      injection h with h1 h2
      subst h1
      rw [List.reverse_cons, List.append_assoc]
      rcases List.append_eq_append_iff.1 h2 with ⟨x, hx1, hx2⟩ | ⟨x, hx1, hx2⟩
      · cases x with
        | nil =>
          -- `i1` is `inner`
          simp only [List.append_nil] at hx1
          subst hx1
          rw [touch_balanced hin]
          simp only [List.singleton_append]
          rw [touch_open hp hg hk, if_pos rfl]
          refine ⟨fun p h => List.mem_cons_of_mem _ h, fun p hp' => ?_⟩
          rcases List.mem_cons.1 hp' with rfl | h
          · exact .inr ⟨[], id, n, i1, rest, rfl, hp, hg, hk, hin, by simp, by simp, by simp; try omega⟩
          · exact .inl h
        | cons y x =>
          rw [List.cons_append] at hx2
          injection hx2 with hy hx2
          subst hy
          subst hx1
          obtain ⟨k1, k2⟩ := ih2 x i2 (closing id :: (inner.reverse ++ (id :: l))) hx2
          have ht : touch get (closing id :: (inner.reverse ++ (id :: l))) 0 = touch get l 0 := by
            rw [touch_close, touch_balanced hin, touch_open hp hg hk, if_neg (by omega)]
          rw [ht] at k1 k2
          have he : (inner ++ closing id :: x).reverse ++ ([id] ++ l) =
              x.reverse ++ (closing id :: (inner.reverse ++ (id :: l))) := by simp
          rw [he]
          refine ⟨k1, fun p hp' => ?_⟩
          rcases k2 p hp' with h | ⟨a, id', n', inner', b, e1, e2, e3, e4, e5, e6, e7, e8⟩
          · exact .inl h
          · refine .inr ⟨id :: (inner ++ closing id :: a), id', n', inner', b, by rw [e1]; simp, e2, e3, e4, e5, ?_, ?_, ?_⟩
            · simp only [List.length_cons, List.length_append, List.length_reverse] at e6 ⊢; omega
            · simp only [List.length_cons, List.length_append] at e7 ⊢; omega
            · simp only [List.length_cons, List.length_append] at e8 ⊢; omega
      · obtain ⟨k1, k2⟩ := ih1 i1 x (id :: l) hx1
        rw [touch_open hp hg hk, if_pos rfl] at k1 k2
        refine ⟨fun p h => k1 p (List.mem_cons_of_mem _ h), fun p hp' => ?_⟩
        rcases k2 p hp' with h | ⟨a, id', n', inner', b, e1, e2, e3, e4, e5, e6, e7, e8⟩
        · rcases List.mem_cons.1 h with rfl | h
          · refine .inr ⟨[], id, n, inner, rest, rfl, hp, hg, hk, hin, by simp, by simp, ?_⟩
            have := congrArg List.length hx1
            simp only [List.length_append] at this
            simp only [List.length_cons, List.length_nil]
            omega
          · exact .inl h
        · refine .inr ⟨id :: a, id', n', inner', b ++ closing id :: rest, by rw [e1]; simp, e2, e3, e4, e5, ?_, ?_, ?_⟩
          · simp only [List.length_cons] at e6 ⊢; omega
          · simp only [List.length_cons]; omega
          · simp only [List.length_cons]; omega

/-- What gets time: the groups around the place. -/
theorem touch_encloses {get : Str → Option (Node σ)} {ids w x : List Str} (h : Balanced get ids) (he : ids = w ++ x)
    (hx : ∀ name, x.head? ≠ some (closing name)) (p : Nat) : p ∈ touch get w.reverse 0 ↔ Encloses get ([] :: ids) p (w.length + 1) := by
  constructor
  · intro hp
    have := (touch_prefix h w x [] he).2 p (by simpa using hp)
    rcases this with h | ⟨a, id, n, inner, b, e1, e2, e3, e4, e5, e6, e7, e8⟩
    · simp [touch] at h
    · refine ⟨[] :: a, id, n, inner, b, by rw [e1]; rfl, e2, e3, e4, e5, ?_, ?_, ?_⟩
      · simp only [List.length_cons, List.length_nil] at e6 ⊢; omega
      · simp only [List.length_nil] at e6; omega
      · simp only [List.length_nil] at e6
        have hne : w.length ≠ (a ++ id :: inner).length := by
          intro hl
          have h1 : w ++ x = (a ++ id :: inner) ++ (closing id :: b) := by rw [← he, e1]; simp
          have := (List.append_inj h1 hl).2
          exact hx id (by rw [this]; rfl)
        simp only [List.length_append, List.length_cons] at hne
        omega
  · rintro ⟨a, id, n, inner, b, e1, e2, e3, e4, e5, e6, e7, e8⟩
    cases a with
    | nil =>
      rw [List.nil_append] at e1
      injection e1 with e1 _
      exact absurd e1.symm e2.1
    | cons y a =>
      rw [List.cons_append] at e1
      injection e1 with _ e1
      rw [he] at e1
      -- `w` is `a ++ id :: i1`
      simp only [List.length_cons] at e6
      rcases List.append_eq_append_iff.1 e1 with ⟨z, hz1, hz2⟩ | ⟨z, hz1, hz2⟩
      · have := congrArg List.length hz1
        simp only [List.length_append] at this
        omega
      · cases z with
        | nil =>
          have := congrArg List.length hz1
          simp only [List.length_append, List.length_nil] at this
          omega
        | cons c i1 =>
          rw [List.cons_append] at hz2
          injection hz2 with hc hz2
          subst hc
          rcases List.append_eq_append_iff.1 hz2 with ⟨y, hy1, hy2⟩ | ⟨y, hy1, hy2⟩
          · have h1 := congrArg List.length hz1
            have h2 := congrArg List.length hy1
            simp only [List.length_append, List.length_cons] at h1 h2
            have : y = [] := List.eq_nil_of_length_eq_zero (by omega)
            subst this
            simp only [List.append_nil] at hy1
            subst hy1
            have := (touch_prefix e5 i1 [] (id :: a.reverse) (by simp)).1 p (by
              rw [touch_open e2 e3 e4, if_pos rfl]
              simp only [List.length_reverse]
              exact List.mem_cons.2 (.inl e6.symm))
            rw [hz1]
            simpa using this
          · have := (touch_prefix e5 i1 y (id :: a.reverse) hy1).1 p (by
              rw [touch_open e2 e3 e4, if_pos rfl]
              simp only [List.length_reverse]
              exact List.mem_cons.2 (.inl e6.symm))
            rw [hz1]
            simpa using this

end Verif.TestSession
