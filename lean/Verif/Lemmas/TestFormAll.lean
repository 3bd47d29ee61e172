import Verif.Lemmas.TestFormSound

/-!
# Every arrangement is a form
-/

set_option linter.unusedVariables false

namespace Verif.TestForm

open Verif Verif.Spec.TestForm

/-- Chance that gives `a` first. -/
def first (a : Nat) (t : Rng) : Rng
  | 0 => a
  | k + 1 => t k

theorem draw_first (a n : Nat) (t : Rng) (h : a < n) : draw (first a t) n = (a, t) := by
  unfold draw
  rw [show first a t 0 = a from rfl, Nat.mod_eq_of_lt h]
  rfl

/-! ## Selection -/

theorem step2_all (repl : Bool) : ∀ (ext sel bag : List Nat) (t : Rng), (∀ i ∈ ext, i ∈ bag) →
    (repl = false → ext.Nodup) → ∃ r, step2 repl ext.length sel bag r = .ok (sel ++ ext, t)
  | [], sel, bag, t, _, _ => ⟨t, by simp [step2]⟩
  | i :: ext, sel, bag, t, hb, hn => by
    have hi := hb i (by simp)
    obtain ⟨k, hk, he⟩ := List.getElem_of_mem hi
    obtain ⟨r, hr⟩ := step2_all repl ext (sel ++ [i]) (if repl then bag else bag.erase i) t (by
      intro j hj
      cases hrp : repl with
      | true => simpa using hb j (by simp [hj])
      | false =>
        have := List.nodup_cons.1 (hn hrp)
        have hne : j ≠ i := fun e => this.1 (e ▸ hj)
        simpa using (List.mem_erase_of_ne hne).2 (hb j (by simp [hj]))) (fun hrp => (List.nodup_cons.1 (hn hrp)).2)
    refine ⟨first k r, ?_⟩
    rw [List.length_cons, step2, draw_first k _ r hk, List.getElem?_eq_getElem hk, he]
    simp only
    rw [hr]
    simp

theorem sorted_unique : ∀ {l m : List Nat}, l.Pairwise (· ≤ ·) → m.Pairwise (· ≤ ·) → l.Perm m → l = m
  | [], m, _, _, h => (List.Perm.nil_eq h)
  | a :: l, [], _, _, h => by simpa using h.length_eq
  | a :: l, b :: m, h1, h2, h => by
    have h1' := List.pairwise_cons.1 h1
    have h2' := List.pairwise_cons.1 h2
    have hab : a = b := by
      have ha : a ∈ b :: m := h.mem_iff.1 (by simp)
      have hb : b ∈ a :: l := h.mem_iff.2 (by simp)
      have l1 : b ≤ a := by
        rcases List.mem_cons.1 ha with e | e
        · omega
        · exact h2'.1 a e
      have l2 : a ≤ b := by
        rcases List.mem_cons.1 hb with e | e
        · omega
        · exact h1'.1 b e
      omega
    subst hab
    rw [sorted_unique h1'.2 h2'.2 (List.Perm.cons_inv h)]

/-- A list without repeats that is part of another is a permutation of a part. -/
theorem nodup_split : ∀ {l m : List Nat}, l.Nodup → (∀ a ∈ l, a ∈ m) → ∃ x, m.Perm (l ++ x)
  | [], m, _, _ => ⟨m, List.Perm.refl _⟩
  | a :: l, m, hn, hs => by
    have hn' := List.nodup_cons.1 hn
    obtain ⟨x, hx⟩ := nodup_split (m := m.erase a) hn'.2 fun b hb => by
      have hne : b ≠ a := fun e => hn'.1 (e ▸ hb)
      exact (List.mem_erase_of_ne hne).2 (hs b (by simp [hb]))
    exact ⟨x, (List.perm_cons_erase (hs a (by simp))).trans (hx.cons a)⟩

/-- Every choice that the rule allows can be picked. -/
theorem pick_all {selection : Option (Int × Bool)} {kids : List Part} {sel : List Nat} (h : Rule selection kids sel)
    (t : Rng) : ∃ r, pick selection kids r = .ok (sel, t) := by
  have hi := step1_inv ((selection.map (·.2)).getD false) kids.length kids 0 [] (List.range kids.length) (by simp)
    (inv_start _ _) (by intro j hj; simp at hj)
  have hs := step1_sel ((selection.map (·.2)).getD false) kids 0 [] (List.range kids.length)
  unfold pick
  simp only [getD_target]
  revert hi hs
  generalize hr : (selection.map (·.2)).getD false = repl
  generalize step1 repl kids 0 [] (List.range kids.length) = s
  obtain ⟨s1, s2⟩ := s
  intro hi hs
  simp only [List.nil_append] at hs
  subst hs
  have hsub : ∀ a ∈ places kids 0, a ∈ sel := by
    intro a ha
    have hb := places_ge kids 0 a ha
    have hlt : a < kids.length := by omega
    exact h.required a kids[a] (List.getElem?_eq_getElem hlt) (places_required kids 0 a hlt (by simpa using ha))
  obtain ⟨ext, hext⟩ := nodup_split (places_nodup kids 0) hsub
  have hlen := hext.length_eq
  rw [List.length_append] at hlen
  have hnum := h.number
  have hif : ¬ ((places kids 0).length : Int) > target selection kids := by omega
  simp only [if_neg hif]
  obtain ⟨r, hx⟩ := step2_all repl ext (places kids 0) s2 t (by
    intro i hie
    have hisel : i ∈ sel := hext.mem_iff.2 (List.mem_append.2 (.inr hie))
    have hlt := h.children i hisel
    cases hrp : repl with
    | true => rw [show s2 = _ from hi.all hrp]; exact List.mem_range.2 hlt
    | false =>
      have hn : sel.Nodup := h.once ((getD_repl selection).1 (hr.trans hrp))
      have hn2 := hext.nodup_iff.1 hn
      have := (hi.perm hrp).mem_iff.2 (List.mem_range.2 hlt)
      rcases List.mem_append.1 this with hm | hm
      · exact absurd rfl ((List.nodup_append.1 hn2).2.2 i hm i hie)
      · exact hm) (by
    intro hrp
    have hn : sel.Nodup := h.once ((getD_repl selection).1 (hr.trans hrp))
    exact (List.nodup_append.1 (hext.nodup_iff.1 hn)).2.1)
  refine ⟨r, ?_⟩
  rw [show (target selection kids - (places kids 0).length).toNat = ext.length by omega, hx]
  simp only
  rw [sorted_unique (sortNat_sorted _) h.sorted ((sortNat_perm _).trans hext.symm)]

/-! ## Shuffling -/

theorem swap_length (l : List Str) (i j : Nat) : (swap l i j).length = l.length := (swap_perm l i j).length_eq

/-- The exchange brings the entry at `j` to place `i`, and leaves the places after both. -/
theorem swap_get (l : List Str) (i j : Nat) (hi : i < l.length) (hj : j ≤ i) :
    (swap l i j)[i]? = l[j]? ∧ ∀ k, i < k → (swap l i j)[k]? = l[k]? := by
  have hj' : j < l.length := by omega
  unfold swap
  rw [List.getElem?_eq_getElem hi, List.getElem?_eq_getElem hj']
  simp only
  constructor
  · by_cases e : j = i
    · subst e; simp [hj']
    · rw [List.getElem?_set_ne (by omega), List.getElem?_set_self hi]
  · intro k hk
    rw [List.getElem?_set_ne (by omega), List.getElem?_set_ne (by omega)]

theorem shuffleFrom_all : ∀ (n : Nat) (l m : List Str) (t : Rng), l.Perm m → n < l.length → l.drop (n + 1) = m.drop (n + 1) →
    ∃ r, shuffleFrom n l r = (m, t)
  | 0, l, m, t, hp, hn, hd => by
    refine ⟨t, ?_⟩
    have hl := hp.length_eq
    cases l with
    | nil => simp at hn
    | cons a l =>
      cases m with
      | nil => simp at hl
      | cons b m =>
        have e : l = m := by simpa using hd
        subst e
        have : a ∈ b :: l := hp.mem_iff.1 (by simp)
        have hab : a = b := by
          have := (List.perm_append_right_iff (l₁ := [a]) (l₂ := [b]) l).1 (by simpa using hp)
          simpa using this
        subst hab
        rfl
  | n + 1, l, m, t, hp, hn, hd => by
    have hl := hp.length_eq
    have hm : n + 1 < m.length := by omega
    -- the first `n+2` entries are a permutation
    have hpt : (l.take (n + 2)).Perm (m.take (n + 2)) := by
      have h1 := List.take_append_drop (n + 2) l
      have h2 := List.take_append_drop (n + 2) m
      rw [← h1, ← h2, hd] at hp
      exact (List.perm_append_right_iff _).1 hp
    have hx : m[n + 1] ∈ l.take (n + 2) := by
      rw [hpt.mem_iff]
      exact List.mem_take_iff_getElem.2 ⟨n + 1, by omega, rfl⟩
    obtain ⟨j, hj, hjx⟩ := List.mem_take_iff_getElem.1 hx
    have hj1 : j ≤ n + 1 := by omega
    have hj2 : j < l.length := by omega
    obtain ⟨g1, g2⟩ := swap_get l (n + 1) j hn hj1
    have hd' : (swap l (n + 1) j).drop (n + 1) = m.drop (n + 1) := by
      apply List.ext_getElem?
      intro k
      rw [List.getElem?_drop, List.getElem?_drop]
      cases k with
      | zero =>
        rw [Nat.add_zero, g1, List.getElem?_eq_getElem hj2, hjx, List.getElem?_eq_getElem hm]
      | succ k =>
        rw [g2 _ (by omega)]
        have := congrArg (fun x => x[k]?) hd
        simp only [List.getElem?_drop] at this
        rw [show n + 1 + (k + 1) = n + 1 + 1 + k by omega]
        exact this
    obtain ⟨r, hr⟩ := shuffleFrom_all n (swap l (n + 1) j) m t ((swap_perm _ _ _).trans hp)
      (by rw [swap_length]; omega) hd'
    refine ⟨first j r, ?_⟩
    rw [shuffleFrom, draw_first j _ r (by omega)]
    exact hr

/-- Every order can come from shuffling. -/
theorem shuffleList_all {l m : List Str} (h : l.Perm m) (t : Rng) : ∃ r, shuffleList l r = (m, t) := by
  unfold shuffleList
  cases l with
  | nil =>
    have := List.Perm.nil_eq h
    subst this
    exact ⟨t, rfl⟩
  | cons a l =>
    refine shuffleFrom_all _ _ _ t h (by simp) ?_
    have := h.length_eq
    rw [List.drop_eq_nil_of_le (by simp), List.drop_eq_nil_of_le (by simp at this ⊢; omega)]

/-! ## Arrangements -/

theorem deal_all : ∀ (cs : List Cell) (l : List Str), holes cs = l.length → deal (slotsOf cs) l = .ok (singles l, [])
  | [], l, h => by
    have : l = [] := List.length_eq_zero_iff.1 h.symm
    subst this; rfl
  | some w :: cs, l, h => by
    rw [slotsOf, deal_some]
    exact deal_all cs l h
  | none :: cs, [], h => by simp [holes] at h
  | none :: cs, a :: l, h => by
    rw [slotsOf, deal, deal_all cs l (by simpa [holes] using h)]
    rfl

theorem mixUp_all {get : Str → Option Part} {cs : List Cell} {pool m : List Str} (t : Rng)
    (hh : holes cs = pool.length) (hi : ∀ g ∈ pool, IsItem get g) (hm : m.Perm pool) :
    ∃ r, mixUp get (slotsOf cs) pool r = .ok ((fill cs (singles m)).flatten.flatten.map some, t) := by
  have hml := hm.length_eq
  have hsl : (singles m).length = holes cs := by simp [singles]; omega
  obtain ⟨x, hx⟩ := spliceAll_ok get (singles m) (slotsOf cs) (by
    rw [singles_flatten]; exact fun g hg => hi g (hm.mem_iff.1 hg))
  have hx' := (spliceAll_spec get cs (singles m) x hsl hx).1
  unfold mixUp
  split
  · rename_i he
    have he : pool = [] := by simpa using he
    subst he
    have : m = [] := by simpa using hml
    subst this
    refine ⟨t, ?_⟩
    rw [← hx']
    injection hx with hx
    rw [hx]
  · obtain ⟨r, hr⟩ := shuffleList_all hm.symm t
    refine ⟨r, ?_⟩
    rw [hr]
    simp only
    rw [deal_all cs m (by omega)]
    simp only [scatter, hx]
    rw [hx']

/-- What is to be shown of `Select` for a part: every arrangement can come from it. -/
def Reach (p : Part) (run : Run) : Prop :=
  ∀ (q : List (List Str)) (t : Rng), Arranged p q → ∃ r, run true r = .ok (q.flatten.map some, t)

theorem place_all (get : Str → Option Part) (sh : Bool) : ∀ (l : List (Part × Run)) (blocks : List (List (List Str)))
    (fl pool : List (List Str)), (∀ x ∈ l, Reach x.1 x.2 ∧ get x.1.id = some x.1) →
    (sh = true → ∀ x ∈ l, x.1.fixed = true ∨ x.1.isSect = false) → Laid sh (l.map (·.1)) blocks fl pool →
    ∃ cs pl, pool = singles pl ∧ holes cs = pl.length ∧ (∀ g ∈ pl, IsItem get g) ∧ pl.length ≤ fl.length ∧
      (∀ f, fl = singles f → f.length = pl.length → blocks = fill cs (singles f)) ∧
      ∀ slots pool0 t, ∃ r, place get true sh l slots pool0 r = .ok (slots ++ slotsOf cs, pool0 ++ pl, t)
  | [], blocks, fl, pool, _, _, h => by
    cases h
    refine ⟨[], [], rfl, rfl, by simp, by simp, fun f _ _ => rfl, fun slots pool0 t => ⟨t, ?_⟩⟩
    simp [place, slotsOf]
  | (child, run) :: rest, blocks, fl, pool, hl, hsh, h => by
    obtain ⟨hre, hg⟩ := hl (child, run) (by simp)
    have hl' : ∀ x ∈ rest, Reach x.1 x.2 ∧ get x.1.id = some x.1 := fun x hx => hl x (by simp [hx])
    have hsh' : sh = true → ∀ x ∈ rest, x.1.fixed = true ∨ x.1.isSect = false :=
      fun e x hx => hsh e x (by simp [hx])
    simp only [List.map_cons] at h
    cases h with
    | still hf hw hrest =>
      rename_i w blocks
      obtain ⟨cs, pl, h1, h2, h3, h4, h5, h6⟩ := place_all get sh rest _ _ _ hl' hsh' hrest
      refine ⟨some w :: cs, pl, h1, h2, h3, h4, fun f e1 e2 => by rw [fill, h5 f e1 e2], ?_⟩
      intro slots pool0 t
      cases hw with
      | item i rq fx =>
        obtain ⟨r, hr⟩ := h6 (slots ++ [some i]) pool0 t
        refine ⟨r, ?_⟩
        unfold place
        rw [if_neg (by simp [hf])]
        simp only [Part.isSect, Bool.false_and, Bool.false_eq_true, if_false, Part.id]
        rw [hr]
        simp [slotsOf]
      | sect ha =>
        rename_i id rq fx v k s sh0 kids pieces
        obtain ⟨r1, hr1⟩ := h6 (slots ++ [some id] ++ pieces.flatten.map some ++ [some (closing id)]) pool0 t
        obtain ⟨r, hr⟩ := hre pieces r1 ha
        refine ⟨r, ?_⟩
        unfold place
        rw [if_neg (by simp [hf])]
        simp only [Part.isSect, Bool.true_and, if_true, Part.id]
        simp only at hr
        rw [hr]
        simp only
        rw [hr1]
        simp [slotsOf]
    | floats hf hm hb hw hrest =>
      rename_i w b blocks fs pool
      have hs : child.isSect = false := by
        rcases hsh rfl (child, run) (by simp) with h | h
        · simp [hf] at h
        · exact h
      have hw' : w = [child.id] := by
        cases hw with
        | item => rfl
        | sect => simp [Part.isSect] at hs
      subst hw'
      obtain ⟨cs, pl, h1, h2, h3, h4, h5, h6⟩ := place_all get true rest _ _ _ hl' hsh' hrest
      have hbl := List.length_pos_iff.2 hb
      refine ⟨none :: cs, child.id :: pl, by rw [h1]; rfl, by simp [holes, h2], ?_, ?_, ?_, ?_⟩
      · intro g hgm
        rcases List.mem_cons.1 hgm with rfl | hgm
        · exact ⟨child, hg, hs⟩
        · exact h3 g hgm
      · simp; omega
      · intro f e1 e2
        have hlen := congrArg List.length e1
        simp [singles] at hlen e2
        have hb1 : b.length = 1 := by omega
        match b, hb1 with
        | [x], _ =>
          cases f with
          | nil => simp at e2
          | cons a f =>
            have e3 : x = [a] ∧ fs = singles f := by
              simp [singles] at e1 ⊢
              exact e1
            obtain ⟨e3, e4⟩ := e3
            subst e3
            rw [show singles (a :: f) = [a] :: singles f from rfl, fill, h5 f e4 (by simpa using e2)]
            rfl
      · intro slots pool0 t
        obtain ⟨r, hr⟩ := h6 (slots ++ [none]) (pool0 ++ [child.id]) t
        refine ⟨r, ?_⟩
        unfold place
        rw [if_pos (by simp [hf]), if_neg (by simp [hm]), hr]
        simp [slotsOf]
    | mixed hf hm hb ha hrest =>
      exfalso
      rcases hsh rfl (child, run) (by simp) with h | h
      · simp [hf] at h
      · cases child with
        | item => simp [Part.mixed] at hm
        | sect => simp [Part.isSect] at h

theorem plainAll_mem : ∀ {ps : List Part} {p : Part}, PlainAll ps → p ∈ ps → Plain p
  | p0 :: ps, p, h, hp => by
    unfold PlainAll at h
    rcases List.mem_cons.1 hp with rfl | hp
    · exact h.1
    · exact plainAll_mem h.2 hp

mutual
/-- Every arrangement can come from `Select`. -/
theorem select_reach (get : Str → Option Part) : ∀ (p : Part), (∀ q ∈ p.all, get q.id = some q) → Plain p →
    Reach p (select get p)
  | .item i rq fx, _, _ => by
    intro q t h
    cases h
  | .sect id rq fx v k s sh kids, hget, hpl => by
    intro q t h
    unfold Plain at hpl
    cases h with
    | mk sel blocks fl pool hr hl hp =>
      have hcl := selects_reach get kids (fun q hq => hget q (by rw [Part.all]; exact List.mem_cons_of_mem _ hq)) hpl.2.2
      rw [← zip_chosen get] at hl
      have hmem : ∀ x ∈ (sel.filterMap fun i => (kids.zip (selects get kids))[i]?), x ∈ kids.zip (selects get kids) ∧ x.1 ∈ kids := by
        intro x hx
        obtain ⟨i, _, hxi⟩ := List.mem_filterMap.1 hx
        have hz := List.mem_of_getElem? hxi
        exact ⟨hz, (List.of_mem_zip (a := x.1) (b := x.2) hz).1⟩
      obtain ⟨cs, pl, h1, h2, h3, h4, h5, h6⟩ := place_all get sh _ blocks fl pool (by
        intro x hx
        refine ⟨hcl x (hmem x hx).1, hget x.1 ?_⟩
        rw [Part.all]
        exact List.mem_cons_of_mem _ (mem_allOf (hmem x hx).2 (self_mem_all _)))
        (fun e x hx => hpl.2.1 e x.1 (hmem x hx).2) hl
      have hf : fl = singles fl.flatten := by
        have : ∀ f ∈ fl, ∃ a, f = [a] := by
          intro f hf
          have := hp.mem_iff.1 hf
          rw [h1] at this
          obtain ⟨a, _, e⟩ := List.mem_map.1 this
          exact ⟨a, e.symm⟩
        clear hp hl h5 h4
        induction fl with
        | nil => rfl
        | cons f fl ih =>
          obtain ⟨a, rfl⟩ := this f (by simp)
          rw [List.flatten_cons, List.singleton_append, show singles (a :: fl.flatten) = [a] :: singles fl.flatten from rfl,
            ← ih fun g hg => this g (by simp [hg])]
      have hpf : fl.flatten.Perm pl := by
        have := hp.flatten
        rw [h1, singles_flatten] at this
        exact this
      obtain ⟨r2, hr2⟩ := mixUp_all (m := fl.flatten) t h2 h3 hpf
      obtain ⟨r1, hr1⟩ := h6 [] [] r2
      obtain ⟨r, hr0⟩ := pick_all hr r1
      refine ⟨r, ?_⟩
      rw [select]
      simp only [hr0, hr1, List.nil_append, hr2]
      rw [h5 _ hf hpf.length_eq]
theorem selects_reach (get : Str → Option Part) : ∀ (ps : List Part), (∀ q ∈ allOf ps, get q.id = some q) →
    PlainAll ps → ∀ x ∈ ps.zip (selects get ps), Reach x.1 x.2
  | [], _, _ => by intro x hx; simp at hx
  | p :: ps, hget, hne => by
    intro x hx
    rw [selects, List.zip_cons_cons] at hx
    unfold PlainAll at hne
    rw [allOf] at hget
    rcases List.mem_cons.1 hx with h | h
    · rw [h]
      exact select_reach get p (fun q hq => hget q (List.mem_append.2 (.inl hq))) hne.1
    · exact selects_reach get ps (fun q hq => hget q (List.mem_append.2 (.inr hq))) hne.2 x h
end

/-! ## Progress -/

/-- What is to be shown of `Select` for a section: it gives identifiers, whatever chance does. -/
def Goes (p : Part) (run : Run) : Prop := p.isSect = true → ∀ r, ∃ (w : List Str) (r' : Rng), run true r = .ok (w.map some, r')

theorem place_goes (get : Str → Option Part) (sh : Bool) : ∀ (l : List (Part × Run)) (slots : Slots) (pool : List Str)
    (r : Rng), (∀ x ∈ l, Goes x.1 x.2 ∧ get x.1.id = some x.1) →
    (sh = true → ∀ x ∈ l, x.1.fixed = true ∨ x.1.isSect = false) →
    ∃ cs pl r', place get true sh l slots pool r = .ok (slots ++ slotsOf cs, pool ++ pl, r') ∧
      (∀ g ∈ pl, IsItem get g) ∧ holes cs = pl.length
  | [], slots, pool, r, _, _ => ⟨[], [], r, by simp [place, slotsOf], by simp, rfl⟩
  | (child, run) :: rest, slots, pool, r, hl, hsh => by
    obtain ⟨hgo, hg⟩ := hl (child, run) (by simp)
    have hl' : ∀ x ∈ rest, Goes x.1 x.2 ∧ get x.1.id = some x.1 := fun x hx => hl x (by simp [hx])
    have hsh' : sh = true → ∀ x ∈ rest, x.1.fixed = true ∨ x.1.isSect = false :=
      fun e x hx => hsh e x (by simp [hx])
    unfold place
    by_cases hf : (sh && !child.fixed) = true
    · rw [if_pos hf]
      simp at hf
      have hs : child.isSect = false := by
        rcases hsh hf.1 (child, run) (by simp) with h | h
        · simp [hf.2] at h
        · exact h
      have hm : child.mixed = false := by
        cases child with
        | item => rfl
        | sect => simp [Part.isSect] at hs
      rw [if_neg (by simp [hm])]
      obtain ⟨cs, pl, r', h1, h2, h4⟩ := place_goes get sh rest (slots ++ [none]) (pool ++ [child.id]) r hl' hsh'
      refine ⟨none :: cs, child.id :: pl, r', by rw [h1]; simp [slotsOf], ?_, by simp [holes, h4]⟩
      intro g hgm
      rcases List.mem_cons.1 hgm with rfl | hgm
      · exact ⟨child, hg, hs⟩
      · exact h2 g hgm
    · rw [if_neg hf]
      by_cases hs : child.isSect = true
      · rw [if_pos (by simp [hs])]
        have := hgo hs r
        simp only at this
        obtain ⟨w, r1, hx⟩ := this
        rw [hx]
        simp only
        obtain ⟨cs, pl, r', h1, h2, h4⟩ := place_goes get sh rest
          (slots ++ [some child.id] ++ w.map some ++ [some (closing child.id)]) pool r1 hl' hsh'
        exact ⟨some (child.id :: w ++ [closing child.id]) :: cs, pl, r', by rw [h1]; simp [slotsOf], h2, h4⟩
      · rw [if_neg (by simp [hs])]
        obtain ⟨cs, pl, r', h1, h2, h4⟩ := place_goes get sh rest (slots ++ [some child.id]) pool r hl' hsh'
        exact ⟨some [child.id] :: cs, pl, r', by rw [h1]; simp [slotsOf], h2, h4⟩

mutual
/-- `Select` gives something for plain sections. -/
theorem select_goes (get : Str → Option Part) : ∀ (p : Part), (∀ q ∈ p.all, get q.id = some q) → Plain p →
    Goes p (select get p)
  | .item i rq fx, _, _ => by intro h; simp [Part.isSect] at h
  | .sect id rq fx v k s sh kids, hget, hpl => by
    intro _ r
    unfold Plain at hpl
    have hcl := selects_goes get kids (fun q hq => hget q (by rw [Part.all]; exact List.mem_cons_of_mem _ hq)) hpl.2.2
    obtain ⟨⟨sel, r1⟩, hp⟩ := (pick_ok s kids r).2 hpl.1
    have hmem : ∀ x ∈ (sel.filterMap fun i => (kids.zip (selects get kids))[i]?), x ∈ kids.zip (selects get kids) ∧ x.1 ∈ kids := by
      intro x hx
      obtain ⟨i, _, hxi⟩ := List.mem_filterMap.1 hx
      have hz := List.mem_of_getElem? hxi
      exact ⟨hz, (List.of_mem_zip (a := x.1) (b := x.2) hz).1⟩
    obtain ⟨cs, pl, r2, h1, h2, h3⟩ := place_goes get sh (sel.filterMap fun i => (kids.zip (selects get kids))[i]?) [] [] r1 (by
      intro x hx
      refine ⟨hcl x (hmem x hx).1, hget x.1 ?_⟩
      rw [Part.all]
      exact List.mem_cons_of_mem _ (mem_allOf (hmem x hx).2 (self_mem_all _)))
      (fun e x hx => hpl.2.1 e x.1 (hmem x hx).2)
    obtain ⟨⟨ids, r3⟩, hm⟩ := mixUp_ok (get := get) (cs := cs) (pool := pl) r2 (by omega)
      (fun h0 => List.length_eq_zero_iff.1 (by omega)) h2
    obtain ⟨bs, b1, b2, b3, b4⟩ := mixUp_spec hm (by omega)
    refine ⟨(fill cs bs).flatten.flatten, r3, ?_⟩
    rw [select]
    simp only [hp, h1, List.nil_append, hm]
    rw [b4]
theorem selects_goes (get : Str → Option Part) : ∀ (ps : List Part), (∀ q ∈ allOf ps, get q.id = some q) →
    PlainAll ps → ∀ x ∈ ps.zip (selects get ps), Goes x.1 x.2
  | [], _, _ => by intro x hx; simp at hx
  | p :: ps, hget, hne => by
    intro x hx
    rw [selects, List.zip_cons_cons] at hx
    unfold PlainAll at hne
    rw [allOf] at hget
    rcases List.mem_cons.1 hx with h | h
    · rw [h]
      exact select_goes get p (fun q hq => hget q (List.mem_append.2 (.inl hq))) hne.1
    · exact selects_goes get ps (fun q hq => hget q (List.mem_append.2 (.inr hq))) hne.2 x h
end

end Verif.TestForm
