import Verif.Model.ODataCopy
import Verif.Spec.ODataCopy

/-!
# Entities are not copied
-/

namespace Verif.Props.Copy
open Verif Verif.OData.Copy
open Verif.OData.Json (Ty Val Data)

variable {V : Type}

/-! ## Null -/

mutual
theorem setNull_paths : ∀ (d : Data V), (∀ ty v, d = .simple ty v → setNull d = .simple ty none) ∧
    (∀ fs, d = .complex fs → ∃ gs, setNull d = .complex gs ∧ ∀ p ty, (∃ v, At fs p ty v) ↔ At gs p ty none)
  | .simple ty v => by
    refine ⟨?_, (fun fs h => nomatch h)⟩
    intro ty' v' h
    cases h
    rfl
  | .complex fs => by
    refine ⟨(fun ty v h => nomatch h), ?_⟩
    intro fs' h
    cases h
    exact ⟨setNulls fs, rfl, setNulls_paths fs⟩

theorem setNulls_paths : ∀ (fs : List (Str × Data V)) (p : List Str) (ty : Ty),
    (∃ v, At fs p ty v) ↔ At (setNulls fs) p ty none
  | [], p, ty => by
    constructor
    · rintro ⟨v, h⟩
      cases h with
      | simple h => simp at h
      | complex h _ => simp at h
    · intro h
      cases h with
      | simple h => simp [setNulls] at h
      | complex h _ => simp [setNulls] at h
  | (k, d) :: fs, p, ty => by
    have hd := setNull_paths d
    have hfs := setNulls_paths fs p ty
    constructor
    · rintro ⟨v, h⟩
      cases h with
      | simple h =>
        rcases List.mem_cons.1 h with h | h
        · cases h
          exact .simple (v := none) (by rw [setNulls, hd.1 ty v rfl]; exact List.mem_cons_self)
        · have := hfs.1 ⟨v, .simple h⟩
          cases this with
          | simple h => exact .simple (by rw [setNulls]; exact List.mem_cons_of_mem _ h)
          | complex h h2 => exact .complex (by rw [setNulls]; exact List.mem_cons_of_mem _ h) h2
      | complex h h2 =>
        rcases List.mem_cons.1 h with h | h
        · cases h
          obtain ⟨gs, h3, h4⟩ := hd.2 _ rfl
          exact .complex (gs := gs) (by rw [setNulls, h3]; exact List.mem_cons_self) ((h4 _ _).1 ⟨_, h2⟩)
        · have := hfs.1 ⟨v, .complex h h2⟩
          cases this with
          | simple h => exact .simple (by rw [setNulls]; exact List.mem_cons_of_mem _ h)
          | complex h h2 => exact .complex (by rw [setNulls]; exact List.mem_cons_of_mem _ h) h2
    · intro h
      have key : At [(k, setNull d)] p ty none ∨ At (setNulls fs) p ty none := by
        cases h with
        | simple h =>
          rw [setNulls] at h
          rcases List.mem_cons.1 h with h | h
          · exact .inl (.simple (by rw [← h]; exact List.mem_cons_self))
          · exact .inr (.simple h)
        | complex h h2 =>
          rw [setNulls] at h
          rcases List.mem_cons.1 h with h | h
          · exact .inl (.complex (by rw [← h]; exact List.mem_cons_self) h2)
          · exact .inr (.complex h h2)
      rcases key with h | h
      · cases d with
        | simple ty' v' =>
          rw [hd.1 _ _ rfl] at h
          cases h with
          | simple h' =>
            simp only [List.mem_singleton, Prod.mk.injEq, Data.simple.injEq] at h'
            obtain ⟨rfl, rfl, _⟩ := h'
            exact ⟨v', .simple List.mem_cons_self⟩
          | complex h' _ => simp at h'
        | complex gs =>
          obtain ⟨gs', h3, h4⟩ := hd.2 _ rfl
          rw [h3] at h
          cases h with
          | simple h' => simp at h'
          | complex h' h2 =>
            simp only [List.mem_singleton, Prod.mk.injEq, Data.complex.injEq] at h'
            obtain ⟨rfl, rfl⟩ := h'
            obtain ⟨v, h5⟩ := (h4 _ _).2 h2
            exact ⟨v, .complex List.mem_cons_self h5⟩
      · obtain ⟨v, h0⟩ := hfs.2 h
        cases h0 with
        | simple h' => exact ⟨v, .simple (List.mem_cons_of_mem _ h')⟩
        | complex h' h2 => exact ⟨v, .complex (List.mem_cons_of_mem _ h') h2⟩
end

mutual
theorem setNull_only_null : ∀ (d : Data V) (gs : List (Str × Data V)), setNull d = .complex gs →
    ∀ p ty v, At gs p ty v → v = none
  | .simple _ _, _, h => nomatch h
  | .complex fs, gs, h => by
    cases h
    exact setNulls_only_null fs

theorem setNulls_only_null : ∀ (fs : List (Str × Data V)) (p : List Str) (ty : Ty) (v : Option (Val V)),
    At (setNulls fs) p ty v → v = none
  | [], p, ty, v, h => by
    cases h with
    | simple h => simp [setNulls] at h
    | complex h _ => simp [setNulls] at h
  | (k, d) :: fs, p, ty, v, h => by
    cases h with
    | simple h =>
      rw [setNulls] at h
      rcases List.mem_cons.1 h with h | h
      · cases d with
        | simple ty' v' =>
          simp only [setNull, Prod.mk.injEq, Data.simple.injEq] at h
          exact h.2.2
        | complex gs => simp [setNull] at h
      · exact setNulls_only_null fs _ _ _ (.simple h)
    | complex h h2 =>
      rw [setNulls] at h
      rcases List.mem_cons.1 h with h | h
      · exact setNull_only_null d _ (Prod.mk.inj h).2.symm _ _ _ h2
      · exact setNulls_only_null fs _ _ _ (.complex h h2)
end

/-- Setting a complex value to null keeps its properties, at any depth, and all of them are null. -/
theorem null_at_any_depth (fs : List (Str × Data V)) :
    ∃ gs, setNull (.complex fs) = .complex gs ∧ (∀ p ty, (∃ v, At fs p ty v) ↔ (∃ v, At gs p ty v)) ∧
      ∀ p ty v, At gs p ty v → v = none := by
  refine ⟨setNulls fs, rfl, fun p ty => ⟨fun h => ⟨none, (setNulls_paths fs p ty).1 h⟩, ?_⟩, setNulls_only_null fs⟩
  rintro ⟨v, h⟩
  have := setNulls_only_null fs p ty v h
  subst this
  exact (setNulls_paths fs p ty).2 h

/-! ## Copies -/

theorem setSimple_self (conv : Conv V) (ty : Ty) (v : Option (Val V)) : setSimple conv ty ty v = .ok (.simple ty v) := if_pos rfl

mutual
theorem setOne_same (conv : Conv V) : ∀ (d nv d' : Data V), setOne conv d nv = .ok d' → d' = d
  | .complex fs, .complex _, d', h => by
    rw [setOne] at h
    cases hf : setFromComplex conv fs fs with
    | error e => rw [hf] at h; cases h
    | ok r =>
      rw [hf] at h
      cases h
      rw [setFromComplex_same conv fs fs r hf]
  | .complex _, .simple _ _, _, h => by rw [setOne] at h; cases h
  | .simple _ _, .complex _, _, h => by rw [setOne] at h; cases h; rfl
  | .simple _ _, .simple _ _, _, h => by rw [setOne, setSimple_self] at h; cases h; rfl

theorem setFromComplex_same (conv : Conv V) : ∀ (fs new fs' : List (Str × Data V)), setFromComplex conv fs new = .ok fs' → fs' = fs
  | [], _, _, h => by rw [setFromComplex] at h; cases h; rfl
  | (k, d) :: fs, new, fs', h => by
    rw [setFromComplex] at h
    cases hl : lookup k new with
    | none =>
      rw [hl] at h
      cases hr : setFromComplex conv fs new with
      | error e => rw [hr] at h; cases h
      | ok r =>
        rw [hr] at h
        cases h
        rw [setFromComplex_same conv fs new r hr]
    | some nv =>
      simp only [hl] at h
      cases ho : setOne conv d nv with
      | error e => rw [ho] at h; cases h
      | ok d' =>
        cases hr : setFromComplex conv fs new with
        | error e => rw [ho, hr] at h; cases h
        | ok r =>
          rw [ho, hr] at h
          cases h
          rw [setOne_same conv d nv d' ho, setFromComplex_same conv fs new r hr]
end

theorem setProperty_same (conv : Conv V) (d d' : Data V) (s : Source V) (h : setProperty conv d s = .ok d') : d' = d := by
  cases s with
  | nothing => cases h; rfl
  | entity => cases h; rfl
  | value nv =>
    cases d with
    | complex fs =>
      cases nv with
      | complex gs =>
        simp only [setProperty] at h
        cases hf : setFromComplex conv fs fs with
        | error e => rw [hf] at h; cases h
        | ok r =>
          rw [hf] at h
          cases h
          rw [setFromComplex_same conv fs fs r hf]
      | simple => cases h; rfl
    | simple ty v =>
      cases nv with
      | complex => cases h; rfl
      | simple => simp only [setProperty, setSimple_self] at h; cases h; rfl

/-- Setting an entity from another one changes nothing, whatever the entities. -/
theorem set_changes_nothing (conv : Conv V) (keys : List Str) : ∀ (fs fs' : List (Str × Data V)) (s : Source V),
    setFromEntity conv keys fs s = .ok fs' → fs' = fs
  | [], _, _, h => by cases h; rfl
  | (k, d) :: fs, fs', s, h => by
    rw [setFromEntity] at h
    by_cases hk : k ∈ keys
    · rw [if_pos hk] at h
      cases hr : setFromEntity conv keys fs s with
      | error e => rw [hr] at h; cases h
      | ok r =>
        rw [hr] at h
        cases h
        rw [set_changes_nothing conv keys fs r s hr]
    · rw [if_neg hk] at h
      cases hg : s.get k with
      | error e => rw [hg] at h; cases h
      | ok s' =>
        cases hp : setProperty conv d s' with
        | error e => simp only [hg, hp, bind, Except.bind] at h; cases h
        | ok d' =>
          cases hr : setFromEntity conv keys fs s' with
          | error e => simp only [hg, hp, hr, bind, Except.bind] at h; cases h
          | ok r =>
            simp only [hg, hp, hr, bind, Except.bind] at h
            cases h
            rw [setProperty_same conv d d' s' hp, set_changes_nothing conv keys fs r s' hr]

/-- Nor does setting a complex value from another one. -/
theorem complex_changes_nothing (conv : Conv V) (fs new fs' : List (Str × Data V)) (h : setFromComplex conv fs new = .ok fs') :
    fs' = fs := setFromComplex_same conv fs new fs' h

/-- A copy of an entity with a value outside its key does not have it: whatever the entity, if a new entity has only nulls. -/
theorem copy_refuted (conv : Conv V) (keys : List Str) (fresh entity copy : List (Str × Data V))
    (hfresh : ∀ p ty v, At fresh p ty v → v = none) (h : copyEntity conv keys fresh entity = .ok copy)
    (k : Str) (p : List Str) (ty : Ty) (v : Val V) (hk : k ∉ keys) (hv : At entity (k :: p) ty (some v)) :
    ¬ Copied keys entity copy := by
  intro hc
  have h1 := hc k p ty (some v) hk hv
  rw [set_changes_nothing conv keys fresh copy _ h] at h1
  have := hfresh _ _ _ h1
  cases this

/-- An entity with two properties outside its key, the first of them simple, cannot be copied at all: an internal error. -/
theorem copy_fails (conv : Conv V) (keys : List Str) (ks : List (Str × Data V)) (hks : ∀ f ∈ ks, f.1 ∈ keys)
    (k1 k2 : Str) (d1 d2 : Data V) (fs entity : List (Str × Data V)) (h1 : k1 ∉ keys) (h2 : k2 ∉ keys)
    (hs : ∀ gs, lookup k1 entity ≠ some (.complex gs)) (hd : ∀ gs, d1 ≠ .complex gs) :
    copyEntity conv keys (ks ++ (k1, d1) :: (k2, d2) :: fs) entity = .error .attributeError := by
  unfold copyEntity
  induction ks with
  | nil =>
    rw [List.nil_append, setFromEntity, if_neg h1]
    cases d1 with
    | complex gs => exact absurd rfl (hd gs)
    | simple ty v =>
      cases hl : lookup k1 entity with
      | none =>
        simp only [Source.get, hl, bind, Except.bind, setProperty]
        rw [setFromEntity, if_neg h2]
        rfl
      | some d =>
        cases d with
        | complex gs => exact absurd hl (hs gs)
        | simple ty' v' =>
          simp only [Source.get, hl, bind, Except.bind, setProperty, setSimple_self]
          rw [setFromEntity, if_neg h2]
          rfl
  | cons f ks ih =>
    obtain ⟨k, d⟩ := f
    rw [List.cons_append, setFromEntity, if_pos (hks (k, d) List.mem_cons_self), ih (fun f hf => hks f (List.mem_cons_of_mem _ hf))]
    rfl

/-- The case of one property outside the key: a copy is made, without the value. -/
theorem copy_sample :
    let fresh : List (Str × Data Unit) := [("Id".toList, .simple .string none), ("Name".toList, .simple .string none)]
    let entity : List (Str × Data Unit) :=
      [("Id".toList, .simple .string (some (.string "1".toList))), ("Name".toList, .simple .string (some (.string "Steve".toList)))]
    copyEntity (fun _ _ _ => .error .typeError) ["Id".toList] fresh entity = .ok fresh ∧
    (∀ p ty v, At fresh p ty v → v = none) ∧ At entity ["Name".toList] .string (some (.string "Steve".toList)) := by
  refine ⟨rfl, ?_, .simple (by simp)⟩
  intro p ty v h
  cases h with
  | simple h =>
    simp only [List.mem_cons, Prod.mk.injEq, Data.simple.injEq, List.not_mem_nil, or_false] at h
    rcases h with ⟨_, _, h⟩ | ⟨_, _, h⟩ <;> exact h
  | complex h _ => simp at h

end Verif.Props.Copy
