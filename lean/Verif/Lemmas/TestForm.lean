import Verif.Spec.TestForm

/-!
# Lemmas on selection and shuffling
-/

set_option linter.unusedVariables false

namespace Verif.TestForm

open Verif Verif.Spec.TestForm

/-! ## Selection -/

/-- What holds of the places selected and the bag, for `n` children. -/
structure Inv (repl : Bool) (n : Nat) (sel bag : List Nat) : Prop where
  small : ∀ i ∈ sel, i < n
  all : repl = true → bag = List.range n
  perm : repl = false → (sel ++ bag).Perm (List.range n)

theorem Inv.add {repl : Bool} {n : Nat} {sel bag : List Nat} (h : Inv repl n sel bag) {i : Nat} (hi : i < n)
    (hb : repl = false → i ∈ bag) : Inv repl n (sel ++ [i]) (if repl then bag else bag.erase i) := by
  refine ⟨?_, ?_, ?_⟩
  · intro j hj
    rcases List.mem_append.1 hj with hj | hj
    · exact h.small j hj
    · rw [List.mem_singleton.1 hj]; exact hi
  · intro hr; rw [if_pos hr]; exact h.all hr
  · intro hr
    rw [if_neg (by simp [hr])]
    refine List.Perm.trans ?_ (h.perm hr)
    rw [List.append_assoc]
    exact List.Perm.append_left sel (List.perm_cons_erase (hb hr)).symm

/-- The places of required children, counted from `i`. -/
def places : List Part → Nat → List Nat
  | [], _ => []
  | c :: cs, i => if c.required then i :: places cs (i + 1) else places cs (i + 1)

theorem places_length : ∀ (cs : List Part) (i : Nat), (places cs i).length = requiredCount cs
  | [], i => rfl
  | c :: cs, i => by
    unfold places requiredCount
    cases h : c.required
    · simpa [h, requiredCount] using places_length cs (i + 1)
    · simpa [h, requiredCount] using places_length cs (i + 1)

theorem places_mem : ∀ (cs : List Part) (i j : Nat) (c : Part), cs[j]? = some c → c.required = true → i + j ∈ places cs i
  | c0 :: cs, i, 0, c, h, hr => by
    simp at h; subst h; simp [places, hr]
  | c0 :: cs, i, j + 1, c, h, hr => by
    have := places_mem cs (i + 1) j c (by simpa using h) hr
    unfold places
    rw [show i + (j + 1) = i + 1 + j by omega]
    split
    · exact List.mem_cons_of_mem _ this
    · exact this

theorem places_ge : ∀ (cs : List Part) (i j : Nat), j ∈ places cs i → i ≤ j ∧ j < i + cs.length
  | [], i, j, h => by simp [places] at h
  | c :: cs, i, j, h => by
    unfold places at h
    have key : j ∈ places cs (i + 1) → i ≤ j ∧ j < i + (c :: cs).length := by
      intro h
      have := places_ge cs (i + 1) j h
      simp; omega
    split at h
    · rcases List.mem_cons.1 h with rfl | h
      · simp
      · exact key h
    · exact key h

theorem places_nodup : ∀ (cs : List Part) (i : Nat), (places cs i).Nodup
  | [], i => by simp [places]
  | c :: cs, i => by
    unfold places
    split
    · refine List.nodup_cons.2 ⟨?_, places_nodup cs (i + 1)⟩
      intro h
      have := places_ge cs (i + 1) i h
      omega
    · exact places_nodup cs (i + 1)

theorem step1_sel (repl : Bool) : ∀ (cs : List Part) (i : Nat) (sel bag : List Nat),
    (step1 repl cs i sel bag).1 = sel ++ places cs i
  | [], i, sel, bag => by simp [step1, places]
  | c :: cs, i, sel, bag => by
    unfold step1 places
    split
    · rw [step1_sel]; simp
    · rw [step1_sel]

theorem step1_inv (repl : Bool) (n : Nat) : ∀ (cs : List Part) (i : Nat) (sel bag : List Nat), i + cs.length ≤ n →
    Inv repl n sel bag → (∀ j ∈ sel, j < i) →
    Inv repl n (step1 repl cs i sel bag).1 (step1 repl cs i sel bag).2
  | [], i, sel, bag, _, h, _ => h
  | c :: cs, i, sel, bag, hn, h, hs => by
    simp at hn
    unfold step1
    split
    · refine step1_inv repl n cs (i + 1) _ _ (by omega) (h.add (by omega) ?_) ?_
      · intro hr
        have : i ∈ sel ++ bag := (h.perm hr).mem_iff.2 (List.mem_range.2 (by omega))
        rcases List.mem_append.1 this with h' | h'
        · exact absurd (hs i h') (by omega)
        · exact h'
      · intro j hj
        rcases List.mem_append.1 hj with hj | hj
        · have := hs j hj; omega
        · rw [List.mem_singleton.1 hj]; omega
    · exact step1_inv repl n cs (i + 1) sel bag (by omega) h (fun j hj => by have := hs j hj; omega)

theorem inv_start (repl : Bool) (n : Nat) : Inv repl n [] (List.range n) :=
  ⟨by intro i hi; simp at hi, fun _ => rfl, fun _ => by simp⟩

theorem step2_inv (repl : Bool) (n : Nat) : ∀ (k : Nat) (sel bag : List Nat) (r : Rng) (sel' : List Nat) (r' : Rng),
    Inv repl n sel bag → step2 repl k sel bag r = .ok (sel', r') →
    sel'.length = sel.length + k ∧ (∃ t, sel' = sel ++ t) ∧ ∃ bag', Inv repl n sel' bag'
  | 0, sel, bag, r, sel', r', h, e => by
    injection e with e
    injection e with e1 e2
    subst e1
    exact ⟨rfl, ⟨[], by simp⟩, bag, h⟩
  | k + 1, sel, bag, r, sel', r', h, e => by
    unfold step2 at e
    cases hb : bag[(draw r bag.length).1]? with
    | none => simp [hb] at e
    | some i =>
      simp only [hb] at e
      have him : i ∈ bag := List.mem_of_getElem? hb
      have hi : i < n := by
        cases hr : repl with
        | true => have := h.all hr; rw [this] at him; exact List.mem_range.1 him
        | false => exact List.mem_range.1 ((h.perm hr).mem_iff.1 (List.mem_append.2 (.inr him)))
      obtain ⟨h1, ⟨t, h2⟩, h3⟩ := step2_inv repl n k _ _ _ sel' r' (h.add hi fun _ => him) e
      refine ⟨?_, ⟨i :: t, ?_⟩, h3⟩
      · rw [h1]; simp; omega
      · rw [h2]; simp

theorem insertNat_perm (a : Nat) : ∀ l, (insertNat a l).Perm (a :: l)
  | [] => List.Perm.refl _
  | b :: l => by
    unfold insertNat
    split
    · exact List.Perm.refl _
    · exact ((insertNat_perm a l).cons b).trans (List.Perm.swap a b l)

theorem sortNat_perm : ∀ l, (sortNat l).Perm l
  | [] => List.Perm.refl _
  | a :: l => (insertNat_perm a _).trans ((sortNat_perm l).cons a)

theorem insertNat_sorted (a : Nat) : ∀ l : List Nat, l.Pairwise (· ≤ ·) → (insertNat a l).Pairwise (· ≤ ·)
  | [], _ => by simp [insertNat]
  | b :: l, h => by
    have hb := List.pairwise_cons.1 h
    unfold insertNat
    split
    · rename_i hab
      refine List.pairwise_cons.2 ⟨?_, h⟩
      intro c hc
      rcases List.mem_cons.1 hc with rfl | hc
      · exact hab
      · exact Nat.le_trans hab (hb.1 c hc)
    · rename_i hab
      refine List.pairwise_cons.2 ⟨?_, insertNat_sorted a l hb.2⟩
      intro c hc
      rcases List.mem_cons.1 ((insertNat_perm a l).mem_iff.1 hc) with rfl | hc
      · omega
      · exact hb.1 c hc

theorem sortNat_sorted : ∀ l : List Nat, (sortNat l).Pairwise (· ≤ ·)
  | [] => List.Pairwise.nil
  | a :: l => insertNat_sorted a _ (sortNat_sorted l)

/-- The rounds of step 2 succeed when there is replacement and a child, or when there are children enough. -/
theorem step2_ok (repl : Bool) (n : Nat) : ∀ (k : Nat) (sel bag : List Nat) (r : Rng), Inv repl n sel bag →
    (repl = true → k ≠ 0 → n ≠ 0) → (repl = false → sel.length + k ≤ n) →
    ∃ x, step2 repl k sel bag r = .ok x
  | 0, sel, bag, r, _, _, _ => ⟨_, rfl⟩
  | k + 1, sel, bag, r, h, h1, h2 => by
    have hpos : 0 < bag.length := by
      cases hr : repl with
      | true => rw [h.all hr]; simp; exact Nat.pos_of_ne_zero (h1 hr (by omega))
      | false =>
        have := (h.perm hr).length_eq
        simp at this
        have := h2 hr
        omega
    have hlt : (draw r bag.length).1 < bag.length := Nat.mod_lt _ hpos
    unfold step2
    rw [List.getElem?_eq_getElem hlt]
    simp only
    have him : bag[(draw r bag.length).1] ∈ bag := List.getElem_mem hlt
    have key : ∀ x ∈ bag, x < n := by
      intro x hx
      cases hr : repl with
      | true => rw [h.all hr] at hx; exact List.mem_range.1 hx
      | false => exact List.mem_range.1 ((h.perm hr).mem_iff.1 (List.mem_append.2 (.inr hx)))
    have hi : bag[(draw r bag.length).1] < n := key _ him
    refine step2_ok repl n k _ _ _ (h.add hi fun _ => him) (fun hr _ => h1 hr (by omega)) (fun hr => ?_)
    have := h2 hr
    simp
    omega

/-- A list without repeats that is part of another is not longer. -/
theorem nodup_length_le : ∀ {l m : List Nat}, l.Nodup → (∀ a ∈ l, a ∈ m) → l.length ≤ m.length
  | [], m, _, _ => by simp
  | a :: l, m, hn, hs => by
    have hn' := List.nodup_cons.1 hn
    have ha : a ∈ m := hs a (by simp)
    have : l.length ≤ (m.erase a).length := by
      refine nodup_length_le hn'.2 fun b hb => ?_
      have hne : b ≠ a := fun e => hn'.1 (e ▸ hb)
      exact (List.mem_erase_of_ne hne).2 (hs b (by simp [hb]))
    rw [List.length_erase_of_mem ha] at this
    have : 0 < m.length := List.length_pos_of_mem ha
    simp
    omega

theorem getD_target (selection : Option (Int × Bool)) (kids : List Part) :
    (selection.map (·.1)).getD (kids.length : Int) = target selection kids := by
  cases selection <;> rfl

theorem getD_repl (selection : Option (Int × Bool)) :
    ((selection.map (·.2)).getD false = false) ↔ ∀ n, selection ≠ some (n, true) := by
  rcases selection with _ | ⟨n, _ | _⟩ <;> simp

/-- What is picked follows the rule. -/
theorem pick_rule {selection : Option (Int × Bool)} {kids : List Part} {r r' : Rng} {sel : List Nat}
    (h : pick selection kids r = .ok (sel, r')) : Rule selection kids sel := by
  unfold pick at h
  simp only [getD_target] at h
  have hi := step1_inv ((selection.map (·.2)).getD false) kids.length kids 0 [] (List.range kids.length) (by simp)
    (inv_start _ _) (by intro j hj; simp at hj)
  have hs := step1_sel ((selection.map (·.2)).getD false) kids 0 [] (List.range kids.length)
  revert h hi hs
  generalize hr : (selection.map (·.2)).getD false = repl
  generalize step1 repl kids 0 [] (List.range kids.length) = s
  intro h hi hs
  split at h
  · cases h
  · rename_i hle
    cases h2 : step2 repl (target selection kids - s.1.length).toNat s.1 s.2 r with
    | error e => simp only [h2] at h; cases h
    | ok x =>
      obtain ⟨sel0, r0⟩ := x
      simp only [h2] at h
      injection h with h
      injection h with h3 h4
      subst h3
      obtain ⟨hl, ⟨t, ht⟩, bag', hinv⟩ := step2_inv repl kids.length _ _ _ _ _ _ hi h2
      have hp := sortNat_perm sel0
      refine ⟨?_, sortNat_sorted sel0, ?_, ?_, ?_⟩
      · rw [hp.length_eq, hl]; omega
      · intro i hi; exact hinv.small i (hp.mem_iff.1 hi)
      · intro i kid hk hreq
        rw [hp.mem_iff, ht, hs]
        have := places_mem kids 0 i kid hk hreq
        simp only [Nat.zero_add] at this
        simp [this]
      · intro hn
        have hf : repl = false := by rw [← hr]; exact (getD_repl selection).2 hn
        have := (hinv.perm hf).nodup_iff.2 List.nodup_range
        exact hp.nodup_iff.2 (List.nodup_append.1 this).1

/-- Something is picked just when there is a choice that the rule allows. -/
theorem pick_ok (selection : Option (Int × Bool)) (kids : List Part) (r : Rng) :
    (∃ x, pick selection kids r = .ok x) ↔ Satisfiable selection kids := by
  have hi := step1_inv ((selection.map (·.2)).getD false) kids.length kids 0 [] (List.range kids.length) (by simp)
    (inv_start _ _) (by intro j hj; simp at hj)
  have hs := step1_sel ((selection.map (·.2)).getD false) kids 0 [] (List.range kids.length)
  constructor
  · rintro ⟨⟨sel, r'⟩, h⟩
    have hrule := pick_rule h
    unfold pick at h
    simp only [getD_target] at h
    rw [hs] at h
    simp only [List.nil_append, places_length] at h
    split at h
    · cases h
    · rename_i hle
      rcases selection with _ | ⟨n, _ | _⟩
      · trivial
      · refine ⟨by simp [target] at hle; omega, ?_⟩
        have h1 := hrule.number
        have h2 := hrule.once (by simp)
        have := nodup_length_le (m := List.range kids.length) h2 (fun a ha => List.mem_range.2 (hrule.children a ha))
        simp [target] at h1 this
        omega
      · refine ⟨by simp [target] at hle; omega, ?_⟩
        intro hk
        have h1 := hrule.number
        subst hk
        cases hsel : sel with
        | nil => rw [hsel] at h1; simp [target] at h1; omega
        | cons a l => have := hrule.children a (by simp [hsel]); simp at this
  · intro hsat
    unfold pick
    simp only [getD_target]
    have hlen : (step1 ((selection.map (·.2)).getD false) kids 0 [] (List.range kids.length)).1.length = requiredCount kids := by
      rw [hs, List.nil_append, places_length]
    have hreq : requiredCount kids ≤ kids.length := by
      unfold requiredCount; exact List.length_filter_le _ _
    have hle : (requiredCount kids : Int) ≤ target selection kids := by
      rcases selection with _ | ⟨n, _ | _⟩
      · simp [target]; omega
      · exact hsat.1
      · exact hsat.1
    rw [if_neg (by rw [hlen]; omega)]
    have := step2_ok ((selection.map (·.2)).getD false) kids.length
      (target selection kids - (step1 ((selection.map (·.2)).getD false) kids 0 [] (List.range kids.length)).1.length).toNat
      _ _ r hi ?_ ?_
    · obtain ⟨⟨sel, r'⟩, hx⟩ := this
      rw [hx]
      exact ⟨_, rfl⟩
    · intro hr hk hn
      rcases selection with _ | ⟨n, _ | _⟩
      · simp at hr
      · simp at hr
      · have := hsat.2 (List.length_eq_zero_iff.1 hn)
        rw [hlen] at hk
        simp [target] at hk
        omega
    · intro hr
      rw [hlen]
      rcases selection with _ | ⟨n, _ | _⟩
      · simp [target]; omega
      · have := hsat.2
        have := hsat.1
        simp [target] at this ⊢
        omega
      · simp at hr

theorem places_required : ∀ (cs : List Part) (k j : Nat) (hj : j < cs.length), k + j ∈ places cs k →
    cs[j].required = true := by
  intro cs
  induction cs with
  | nil => intro k j hj; simp at hj
  | cons c cs ih =>
    intro k j hj hm
    cases j with
    | zero =>
      unfold places at hm
      split at hm
      · assumption
      · have := places_ge cs (k + 1) (k + 0) hm; omega
    | succ j =>
      unfold places at hm
      have : k + 1 + j ∈ places cs (k + 1) := by
        split at hm
        · rcases List.mem_cons.1 hm with h | h
          · omega
          · rw [show k + 1 + j = k + (j + 1) by omega]; exact h
        · rw [show k + 1 + j = k + (j + 1) by omega]; exact hm
      simpa using ih (k + 1) j (by simpa using hj) this

/-- A rule that can be followed can be satisfied: `Satisfiable` says what it should. -/
theorem rule_satisfiable {selection : Option (Int × Bool)} {kids : List Part} {sel : List Nat}
    (h : Rule selection kids sel) : Satisfiable selection kids := by
  have hreq : requiredCount kids ≤ sel.length := by
    rw [← places_length kids 0]
    refine nodup_length_le (places_nodup kids 0) fun i hi => ?_
    have hb := places_ge kids 0 i hi
    have hlt : i < kids.length := by omega
    refine h.required i kids[i] (List.getElem?_eq_getElem hlt) ?_
    exact places_required kids 0 i hlt (by simpa using hi)
  have hn := h.number
  rcases selection with _ | ⟨n, _ | _⟩
  · trivial
  · simp only [target] at hn
    refine ⟨by omega, ?_⟩
    have := nodup_length_le (m := List.range kids.length) (h.once (by simp)) (fun a ha => List.mem_range.2 (h.children a ha))
    simp at this
    omega
  · simp only [target] at hn
    refine ⟨by omega, ?_⟩
    intro hk
    subst hk
    cases hs : sel with
    | nil => simp [hs] at hn; omega
    | cons a l => have := h.children a (by simp [hs]); simp at this

end Verif.TestForm
