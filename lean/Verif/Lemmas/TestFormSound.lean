import Verif.Lemmas.TestFormMix

/-!
# Forms are arrangements of the test
-/

set_option linter.unusedVariables false

namespace Verif.TestForm

open Verif Verif.Spec.TestForm

/-- Pieces of one identifier each. -/
def singles (l : List Str) : List (List Str) := l.map ([·])

theorem singles_flatten (l : List Str) : (singles l).flatten = l := by
  induction l with
  | nil => rfl
  | cons a l ih => simp [singles] at ih ⊢; exact ih

theorem singles_append (l m : List Str) : singles (l ++ m) = singles l ++ singles m := by simp [singles]

/-- What `place` makes of the chosen children. -/
inductive Slotted : Bool → List Part → List Cell → List Str → Prop where
  | nil {sh} : Slotted sh [] [] []
  | still {sh kid kids w cs pool} : (sh && !kid.fixed) = false → Whole kid w → Slotted sh kids cs pool →
      Slotted sh (kid :: kids) (some w :: cs) pool
  | floats {kid kids cs pool} : kid.fixed = false → kid.mixed = false → Whole kid [kid.id] →
      Slotted true kids cs pool → Slotted true (kid :: kids) (none :: cs) (kid.id :: pool)
  | mixed {kid kids q cs pool} : kid.fixed = false → kid.mixed = true → q ≠ [] → Arranged kid (singles q) →
      Slotted true kids cs pool → Slotted true (kid :: kids) (none :: cs) (q ++ pool)

theorem Slotted.enough {sh : Bool} {kids : List Part} {cs : List Cell} {pool : List Str}
    (h : Slotted sh kids cs pool) : holes cs ≤ pool.length := by
  induction h with
  | nil => simp [holes]
  | still _ _ _ ih => simpa [holes] using ih
  | floats _ _ _ _ ih => simpa [holes] using ih
  | mixed _ _ hq _ _ ih =>
    have := List.length_pos_iff.2 hq
    simp [holes]; omega

theorem Slotted.laid {sh : Bool} {kids : List Part} {cs : List Cell} {pool : List Str}
    (h : Slotted sh kids cs pool) : ∀ (bs : List (List Str)), bs.length = holes cs → (∀ b ∈ bs, b ≠ []) →
    Laid sh kids (fill cs bs) (singles bs.flatten) (singles pool) := by
  induction h with
  | nil =>
    intro bs hl _
    have : bs = [] := List.length_eq_zero_iff.1 (by simpa [holes] using hl)
    subst this
    exact .nil
  | still hf hw _ ih =>
    intro bs hl hb
    exact .still hf hw (ih bs hl hb)
  | floats hf hm hw _ ih =>
    intro bs hl hb
    cases bs with
    | nil => simp [holes] at hl
    | cons b bs =>
      rw [List.flatten_cons, singles_append]
      refine .floats hf hm ?_ hw (ih bs (by simpa [holes] using hl) fun c hc => hb c (by simp [hc]))
      have := hb b (by simp)
      simpa [singles] using this
  | mixed hf hm hq ha _ ih =>
    intro bs hl hb
    cases bs with
    | nil => simp [holes] at hl
    | cons b bs =>
      rw [List.flatten_cons, singles_append, singles_append]
      refine .mixed hf hm ?_ ha (ih bs (by simpa [holes] using hl) fun c hc => hb c (by simp [hc]))
      have := hb b (by simp)
      simpa [singles] using this

/-- Cells of one identifier give pieces of one identifier. -/
theorem fill_singles : ∀ (cs : List Cell) (bs : List (List Str)), (∀ w, some w ∈ cs → ∃ a, w = [a]) →
    (fill cs bs).flatten = singles (fill cs bs).flatten.flatten
  | [], bs, _ => rfl
  | some w :: cs, bs, h => by
    obtain ⟨a, rfl⟩ := h w (by simp)
    have := fill_singles cs bs fun w hw => h w (by simp [hw])
    simp only [fill, List.flatten_cons, List.singleton_append]
    rw [show singles (a :: (fill cs bs).flatten.flatten) = [a] :: singles (fill cs bs).flatten.flatten from rfl, ← this]
  | none :: cs, [], h => by
    have := fill_singles cs [] fun w hw => h w (by simp [hw])
    simpa [fill] using this
  | none :: cs, b :: bs, h => by
    have := fill_singles cs bs fun w hw => h w (by simp [hw])
    have e : (b.map ([·])).flatten = b := singles_flatten b
    simp only [fill, List.flatten_cons, List.flatten_append, e]
    rw [singles_append, ← this]
    rfl

/-- Blocks are not empty. -/
theorem laid_blocks : ∀ {sh : Bool} {kids : List Part} {blocks : List (List (List Str))} {fs pool : List (List Str)},
    Laid sh kids blocks fs pool → blocks.length = kids.length ∧ ∀ b ∈ blocks, b ≠ []
  | _, _, _, _, _, .nil => ⟨rfl, by simp⟩
  | _, _, _, _, _, .still _ _ h => by
    obtain ⟨h1, h2⟩ := laid_blocks h
    refine ⟨by simp [h1], fun b hb => ?_⟩
    rcases List.mem_cons.1 hb with rfl | hb
    · simp
    · exact h2 b hb
  | _, _, _, _, _, .floats _ _ hb0 _ h => by
    obtain ⟨h1, h2⟩ := laid_blocks h
    refine ⟨by simp [h1], fun b hb => ?_⟩
    rcases List.mem_cons.1 hb with rfl | hb
    · exact hb0
    · exact h2 b hb
  | _, _, _, _, _, .mixed _ _ hb0 _ h => by
    obtain ⟨h1, h2⟩ := laid_blocks h
    refine ⟨by simp [h1], fun b hb => ?_⟩
    rcases List.mem_cons.1 hb with rfl | hb
    · exact hb0
    · exact h2 b hb

/-- The children chosen are as many as the rule says. -/
theorem chosen_length {s : Option (Int × Bool)} {kids : List Part} {sel : List Nat} (h : Rule s kids sel) :
    (sel.filterMap fun i => kids[i]?).length = sel.length := by
  have := h.children
  clear h
  induction sel with
  | nil => rfl
  | cons i sel ih =>
    have hi := this i (by simp)
    rw [List.filterMap_cons, List.getElem?_eq_getElem hi]
    simp [ih fun j hj => this j (by simp [hj])]

/-- The contents of a section that selects something are not nothing. -/
theorem arranged_ne {id rq fx v k s sh kids} {q : List (List Str)} (h : Arranged (.sect id rq fx v k s sh kids) q)
    (ht : target s kids ≠ 0) : q ≠ [] := by
  cases h with
  | mk sel blocks fl pool hr hl hp =>
    obtain ⟨h1, h2⟩ := laid_blocks hl
    have hlen := chosen_length hr
    have hn := hr.number
    cases blocks with
    | nil => simp only [List.length_nil] at h1; omega
    | cons b bs =>
      have := h2 b (by simp)
      intro e
      rw [List.flatten_cons] at e
      exact this (List.append_eq_nil_iff.1 e).1

/-- What is to be shown of `Select` for a part. -/
def Claim (get : Str → Option Part) (p : Part) (run : Run) : Prop :=
  ∀ (e : Bool) (r r' : Rng) (ids : Slots), run e r = .ok (ids, r') → (e = false → ∀ g, some g ∈ ids → IsItem get g) →
    ∃ q, Arranged p q ∧ ids = q.flatten.map some ∧ (e = false → q = singles q.flatten)

theorem mixIn_spec (get : Str → Option Part) : ∀ (ids : Slots) (acc pool : List Str), mixIn get ids acc = .ok pool →
    ∃ q, ids = q.map some ∧ pool = acc ++ q
  | [], acc, pool, h => by injection h with h; exact ⟨[], rfl, by simp [h]⟩
  | none :: ids, acc, pool, h => by cases h
  | some g :: ids, acc, pool, h => by
    unfold mixIn at h
    cases hg : get g with
    | none => simp only [hg] at h; cases h
    | some p =>
      simp only [hg] at h
      split at h
      · cases h
      · obtain ⟨q, h1, h2⟩ := mixIn_spec get ids _ pool h
        exact ⟨g :: q, by simp [h1], by simp [h2]⟩

theorem whole_item {get : Str → Option Part} {p : Part} (hg : get p.id = some p) (hi : IsItem get p.id) :
    Whole p [p.id] := by
  obtain ⟨p', h1, h2⟩ := hi
  rw [hg] at h1
  injection h1 with h1; subst h1
  cases p with
  | item i rq fx => exact .item i rq fx
  | sect => simp [Part.isSect] at h2

/-- Step 4. -/
theorem place_spec (get : Str → Option Part) (e sh : Bool) : ∀ (l : List (Part × Run)) (slots : Slots)
    (pool : List Str) (r : Rng) (slots' : Slots) (pool' : List Str) (r' : Rng),
    (∀ x ∈ l, Claim get x.1 x.2 ∧ get x.1.id = some x.1 ∧ NoEmptyMix x.1) →
    place get e sh l slots pool r = .ok (slots', pool', r') → (∀ g ∈ pool', IsItem get g) →
    (e = false → ∀ g, some g ∈ slots' → IsItem get g) →
    ∃ cs pool1, slots' = slots ++ slotsOf cs ∧ pool' = pool ++ pool1 ∧ Slotted sh (l.map (·.1)) cs pool1 ∧
      (e = false → ∀ w, some w ∈ cs → ∃ a, w = [a])
  | [], slots, pool, r, slots', pool', r', hl, h, _, _ => by
    injection h with h; injection h with h1 h; injection h with h2 h3
    subst h1; subst h2
    exact ⟨[], [], by simp [slotsOf], by simp, .nil, by simp⟩
  | (child, run) :: rest, slots, pool, r, slots', pool', r', hl, h, hp, hs => by
    obtain ⟨hc, hg, hn⟩ := hl (child, run) (by simp)
    have hl' : ∀ x ∈ rest, Claim get x.1 x.2 ∧ get x.1.id = some x.1 ∧ NoEmptyMix x.1 :=
      fun x hx => hl x (by simp [hx])
    unfold place at h
    split at h
    · rename_i hf
      have hsh : sh = true := by simp at hf; exact hf.1
      have hfx : child.fixed = false := by simp at hf; exact hf.2
      subst hsh
      split at h
      · rename_i hm
        cases hr : run false r with
        | error e => simp only [hr] at h; cases h
        | ok x =>
          obtain ⟨ids, r1⟩ := x
          simp only [hr] at h
          cases hmi : mixIn get ids pool with
          | error e => simp only [hmi] at h; cases h
          | ok pool0 =>
            simp only [hmi] at h
            obtain ⟨q, hq1, hq2⟩ := mixIn_spec get ids pool pool0 hmi
            obtain ⟨cs, pool1, h1, h2, h3, h4⟩ := place_spec get e true rest _ _ _ _ _ _ hl' h hp hs
            obtain ⟨qq, a1, a2, a3⟩ := hc false r r1 ids hr (fun _ g hgm => hp g (by
              rw [h2, hq2]; rw [hq1] at hgm; simp at hgm; simp [hgm]))
            have a3 := a3 rfl
            have hqq : q = qq.flatten := by
              rw [hq1] at a2
              exact (List.map_inj_right (fun a b h => by injection h)).1 a2
            refine ⟨none :: cs, q ++ pool1, by rw [h1]; simp [slotsOf], by rw [h2, hq2]; simp, ?_, ?_⟩
            · refine .mixed hfx hm ?_ (by rw [hqq, ← a3]; exact a1) h3
              cases child with
              | item => simp [Part.mixed] at hm
              | sect id rq fx v k s sh kids =>
                have hne := arranged_ne a1 (hn.1 hm)
                intro e0
                rw [hqq] at e0
                rw [e0] at a3
                exact hne a3
            · intro he w hw
              simp at hw
              exact h4 he w hw
      · rename_i hm
        have hm : child.mixed = false := by simpa using hm
        obtain ⟨cs, pool1, h1, h2, h3, h4⟩ := place_spec get e true rest _ _ _ _ _ _ hl' h hp hs
        refine ⟨none :: cs, child.id :: pool1, by rw [h1]; simp [slotsOf], by rw [h2]; simp, ?_, ?_⟩
        · exact .floats hfx hm (whole_item hg (hp _ (by rw [h2]; simp))) h3
        · intro he w hw
          simp at hw
          exact h4 he w hw
    · rename_i hf
      have hf : (sh && !child.fixed) = false := by simpa using hf
      split at h
      · rename_i hse
        have hs1 : child.isSect = true := by simp at hse; exact hse.1
        have he1 : e = true := by simp at hse; exact hse.2
        subst he1
        cases hr : run true r with
        | error e => simp only [hr] at h; cases h
        | ok x =>
          obtain ⟨ids, r1⟩ := x
          simp only [hr] at h
          obtain ⟨cs, pool1, h1, h2, h3, h4⟩ := place_spec get true sh rest _ _ _ _ _ _ hl' h hp hs
          obtain ⟨qq, a1, a2, a3⟩ := hc true r r1 ids hr (fun he => by cases he)
          refine ⟨some (child.id :: qq.flatten ++ [closing child.id]) :: cs, pool1, ?_, h2, ?_, fun he => by cases he⟩
          · rw [h1, a2]; simp [slotsOf]
          · refine .still hf ?_ h3
            cases child with
            | item => simp [Part.isSect] at hs1
            | sect id rq fx v k s sh kids => exact .sect a1
      · rename_i hse
        obtain ⟨cs, pool1, h1, h2, h3, h4⟩ := place_spec get e sh rest _ _ _ _ _ _ hl' h hp hs
        refine ⟨some [child.id] :: cs, pool1, ?_, h2, ?_, ?_⟩
        · rw [h1]; simp [slotsOf]
        · refine .still hf ?_ h3
          cases child with
          | item i rq fx => exact .item i rq fx
          | sect id rq fx v k s sh0 kids =>
            have he : e = false := by simpa [Part.isSect] using hse
            exact whole_item hg (hs he _ (by rw [h1]; simp))
        · intro he w hw
          rcases List.mem_cons.1 hw with h5 | hw
          · injection h5 with h5; exact ⟨_, h5⟩
          · exact h4 he w hw

theorem selects_length (get : Str → Option Part) : ∀ kids, (selects get kids).length = kids.length
  | [] => by simp [selects]
  | p :: ps => by simp [selects, selects_length get ps]

theorem zip_chosen (get : Str → Option Part) (kids : List Part) (sel : List Nat) :
    (sel.filterMap fun i => (kids.zip (selects get kids))[i]?).map (·.1) = sel.filterMap fun i => kids[i]? := by
  have hl := selects_length get kids
  induction sel with
  | nil => rfl
  | cons i sel ih =>
    rw [List.filterMap_cons, List.filterMap_cons]
    by_cases hi : i < kids.length
    · rw [List.getElem?_eq_getElem hi, List.getElem?_eq_getElem (by simp [hl, hi])]
      simp [ih]
    · rw [List.getElem?_eq_none (l := kids) (by omega),
        List.getElem?_eq_none (l := kids.zip (selects get kids)) (by simp [hl]; omega)]
      exact ih

theorem self_mem_all (p : Part) : p ∈ p.all := by
  cases p <;> simp [Part.all]

theorem mem_allOf : ∀ {ps : List Part} {p q : Part}, p ∈ ps → q ∈ p.all → q ∈ allOf ps
  | p0 :: ps, p, q, hp, hq => by
    rw [allOf, List.mem_append]
    rcases List.mem_cons.1 hp with rfl | hp
    · exact .inl hq
    · exact .inr (mem_allOf hp hq)

theorem noEmptyMixes_mem : ∀ {ps : List Part} {p : Part}, NoEmptyMixes ps → p ∈ ps → NoEmptyMix p
  | p0 :: ps, p, h, hp => by
    unfold NoEmptyMixes at h
    rcases List.mem_cons.1 hp with rfl | hp
    · exact h.1
    · exact noEmptyMixes_mem h.2 hp

mutual
/-- `Select` arranges the section. -/
theorem select_claim (get : Str → Option Part) : ∀ (p : Part), (∀ q ∈ p.all, get q.id = some q) → NoEmptyMix p →
    Claim get p (select get p)
  | .item i rq fx, _, _ => by
    intro e r r' ids h
    rw [select] at h
    cases h
  | .sect id rq fx v k s sh kids, hget, hne => by
    intro e r r' ids h hi
    rw [select] at h
    unfold NoEmptyMix at hne
    cases hp : pick s kids r with
    | error x => simp only [hp] at h; cases h
    | ok x =>
      obtain ⟨sel, r1⟩ := x
      simp only [hp] at h
      cases hpl : place get e sh (sel.filterMap fun i => (kids.zip (selects get kids))[i]?) [] [] r1 with
      | error x => simp only [hpl] at h; cases h
      | ok x =>
        obtain ⟨slots, pool, r2⟩ := x
        simp only [hpl] at h
        have hrule := pick_rule hp
        have hcl := selects_claim get kids (fun q hq => hget q (by rw [Part.all]; exact List.mem_cons_of_mem _ hq)) hne.2
        have hcl' : ∀ x ∈ (sel.filterMap fun i => (kids.zip (selects get kids))[i]?),
            Claim get x.1 x.2 ∧ get x.1.id = some x.1 ∧ NoEmptyMix x.1 := by
          intro x hx
          obtain ⟨i, _, hxi⟩ := List.mem_filterMap.1 hx
          have hz := List.mem_of_getElem? hxi
          have hk : x.1 ∈ kids := (List.of_mem_zip (a := x.1) (b := x.2) hz).1
          refine ⟨hcl x hz, hget x.1 ?_, noEmptyMixes_mem hne.2 hk⟩
          rw [Part.all]
          exact List.mem_cons_of_mem _ (mem_allOf hk (self_mem_all _))
        have hslots : ∃ cs, slots = slotsOf cs := by
          have : ∀ s : Slots, ∃ cs, s = slotsOf cs := by
            intro s
            induction s with
            | nil => exact ⟨[], rfl⟩
            | cons a s ih =>
              obtain ⟨cs, rfl⟩ := ih
              cases a with
              | none => exact ⟨none :: cs, rfl⟩
              | some a => exact ⟨some [a] :: cs, rfl⟩
          exact this slots
        have hitems : ∀ g ∈ pool, IsItem get g := by
          obtain ⟨cs, rfl⟩ := hslots
          exact mixUp_items h
        have hkeep : e = false → ∀ g, some g ∈ slots → IsItem get g := by
          intro he g hg
          refine hi he g ?_
          obtain ⟨cs, rfl⟩ := hslots
          exact mixUp_keeps h hg
        obtain ⟨cs, pool1, h1, h2, h3, h4⟩ := place_spec get e sh _ _ _ _ _ _ _ hcl' hpl hitems hkeep
        simp at h1 h2
        subst h1; subst h2
        obtain ⟨bs, b1, b2, b3, b4⟩ := mixUp_spec h h3.enough
        rw [zip_chosen] at h3
        refine ⟨(fill cs bs).flatten, ?_, b4, fun he => fill_singles cs bs (h4 he)⟩
        exact .mk sel (fill cs bs) (singles bs.flatten) (singles pool) hrule (h3.laid bs b1 b2) (b3.map _)
theorem selects_claim (get : Str → Option Part) : ∀ (ps : List Part), (∀ q ∈ allOf ps, get q.id = some q) →
    NoEmptyMixes ps → ∀ x ∈ ps.zip (selects get ps), Claim get x.1 x.2
  | [], _, _ => by intro x hx; simp at hx
  | p :: ps, hget, hne => by
    intro x hx
    rw [selects, List.zip_cons_cons] at hx
    unfold NoEmptyMixes at hne
    rw [allOf] at hget
    rcases List.mem_cons.1 hx with h | h
    · rw [h]
      exact select_claim get p (fun q hq => hget q (List.mem_append.2 (.inl hq))) hne.1
    · exact selects_claim get ps (fun q hq => hget q (List.mem_append.2 (.inr hq))) hne.2 x h
end

end Verif.TestForm
