import Verif.Lemmas.TestFormAll

/-!
# Test forms: selection and ordering
-/

set_option linter.unusedVariables false

namespace Verif.Props

open Verif Verif.TestForm Verif.Spec.TestForm

/-! ## Names -/

theorem find_of_nodup : ∀ (l : List Part), (l.map (·.id)).Nodup → ∀ q ∈ l, l.find? (fun p => p.id = q.id) = some q
  | p :: l, hn, q, hq => by
    rw [List.map_cons, List.nodup_cons] at hn
    rcases List.mem_cons.1 hq with rfl | hq
    · simp
    · have : p.id ≠ q.id := fun e => hn.1 (e ▸ List.mem_map_of_mem hq)
      rw [List.find?_cons_of_neg (by simpa using this)]
      exact find_of_nodup l hn.2 q hq

theorem allOf_append : ∀ (l m : List Part), allOf (l ++ m) = allOf l ++ allOf m
  | [], m => by simp [allOf]
  | p :: l, m => by simp [allOf, allOf_append l m]

/-- The names of a test mean its parts. -/
theorem getPart_of_mem {test : List TPart} (hd : Distinct test) {p : TPart} (hp : p ∈ test) {s q : Part}
    (hs : s ∈ p.sections) (hq : q ∈ s.all) : getPart test q.id = some q :=
  find_of_nodup _ hd q (mem_allOf (List.mem_flatMap.2 ⟨p, hp, hs⟩) hq)

/-! ## Forms are arrangements of the test -/

theorem formSections_spec (get : Str → Option Part) : ∀ (ss : List Part) (r r' : Rng) (ids : Slots),
    (∀ s ∈ ss, s.isSect = true ∧ (∀ q ∈ s.all, get q.id = some q) ∧ NoEmptyMix s) →
    formSections get ss r = .ok (ids, r') → ∃ w, ids = w.map some ∧ Sections ss w
  | [], r, r', ids, _, h => by
    injection h with h; injection h with h1 h2; subst h1
    exact ⟨[], rfl, .nil⟩
  | s :: ss, r, r', ids, hs, h => by
    obtain ⟨h1, h2, h3⟩ := hs s (by simp)
    unfold formSections at h
    cases hsel : select get s true r with
    | error e => simp only [hsel] at h; cases h
    | ok x =>
      obtain ⟨ids1, r1⟩ := x
      simp only [hsel] at h
      cases hf : formSections get ss r1 with
      | error e => simp only [hf] at h; cases h
      | ok x =>
        obtain ⟨rest, r2⟩ := x
        simp only [hf] at h
        injection h with h; injection h with h4 h5; subst h4
        obtain ⟨w, hw1, hw2⟩ := formSections_spec get ss r1 r2 rest (fun t ht => hs t (by simp [ht])) hf
        obtain ⟨q, a1, a2, a3⟩ := select_claim get s h2 h3 true r r1 ids1 hsel (fun e => by cases e)
        refine ⟨(s.id :: q.flatten ++ [closing s.id]) ++ w, by rw [a2, hw1]; simp, ?_⟩
        refine .cons ?_ hw2
        cases s with
        | item => simp [Part.isSect] at h1
        | sect id rq fx v k sl sh kids => exact .sect a1

theorem formParts_spec (get : Str → Option Part) : ∀ (ps : List TPart) (r r' : Rng) (ids : Slots),
    (∀ p ∈ ps, ∀ s ∈ p.sections, s.isSect = true ∧ (∀ q ∈ s.all, get q.id = some q) ∧ NoEmptyMix s) →
    formParts get ps r = .ok (ids, r') → ∃ w, ids = w.map some ∧ Parts ps w
  | [], r, r', ids, _, h => by
    injection h with h; injection h with h1 h2; subst h1
    exact ⟨[], rfl, .nil⟩
  | p :: ps, r, r', ids, hs, h => by
    unfold formParts at h
    cases hsel : formSections get p.sections r with
    | error e => simp only [hsel] at h; cases h
    | ok x =>
      obtain ⟨ids1, r1⟩ := x
      simp only [hsel] at h
      cases hf : formParts get ps r1 with
      | error e => simp only [hf] at h; cases h
      | ok x =>
        obtain ⟨rest, r2⟩ := x
        simp only [hf] at h
        injection h with h; injection h with h4 h5; subst h4
        obtain ⟨w, hw1, hw2⟩ := formParts_spec get ps r1 r2 rest (fun t ht => hs t (by simp [ht])) hf
        obtain ⟨v, hv1, hv2⟩ := formSections_spec get p.sections r r1 ids1 (hs p (by simp)) hsel
        exact ⟨(p.id :: v ++ [closing p.id]) ++ w, by rw [hv1, hw1]; simp, .cons hv2 hw2⟩

/-- **C82**, for tests without sections that select nothing and mix with their parents: whatever chance does, a form
that is made is an arrangement that the selection and ordering rules allow. -/
theorem form_arranged_partial (test : List TPart) (r : Rng) (components : Slots) (hd : Distinct test)
    (hs : SectionsOnly test) (hn : ∀ p ∈ test, NoEmptyMixes p.sections) (h : form test r = .ok components) :
    ∃ ids, components = some [] :: ids.map some ∧ Parts test ids := by
  unfold form at h
  cases hf : formParts (getPart test) test r with
  | error e => simp only [hf] at h; cases h
  | ok x =>
    obtain ⟨ids, r'⟩ := x
    simp only [hf] at h
    injection h with h; subst h
    obtain ⟨w, hw1, hw2⟩ := formParts_spec (getPart test) test r r' ids (fun p hp s hsm =>
      ⟨hs p hp s hsm, fun q hq => getPart_of_mem hd hp hsm hq, noEmptyMixes_mem (hn p hp) hsm⟩) hf
    exact ⟨w, by rw [hw1], hw2⟩

/-- A test with a section that shuffles: a first item that stays, two that move, and an invisible section that is
mixed in, of which one of two items is selected; then a section of which two of three are selected. -/
def formSample : List TPart :=
  [⟨"P".toList, [
    .sect "A".toList false false true true none true [
      .item "A1".toList false true, .item "A2".toList false false, .item "A3".toList false false,
      .sect "B".toList false false false false (some (1, false)) false [
        .item "B1".toList false false, .item "B2".toList false false]],
    .sect "C".toList false false true true (some (2, false)) false [
      .item "C1".toList false false, .item "C2".toList true false, .item "C3".toList false false]]⟩]

theorem formSample_distinct : Distinct formSample := by
  unfold Distinct; decide +kernel

theorem formSample_sections : SectionsOnly formSample := by
  intro p hp s hs
  simp [formSample] at hp
  subst hp
  simp at hs
  rcases hs with rfl | rfl <;> rfl

theorem formSample_mixes : ∀ p ∈ formSample, NoEmptyMixes p.sections := by
  intro p hp
  simp [formSample] at hp
  subst hp
  simp [NoEmptyMixes, NoEmptyMix, target]

/-- A form of that test. -/
theorem formSample_form : form formSample (fun k => k + 1) = .ok
    (["", "P", "A", "A1", "B2", "A3", "A2", "-A", "C", "C1", "C2", "-C", "-P"].map fun s => some s.toList) := by
  decide +kernel

/-! ## Forms are made -/

theorem formSections_goes (get : Str → Option Part) : ∀ (ss : List Part) (r : Rng),
    (∀ s ∈ ss, s.isSect = true ∧ (∀ q ∈ s.all, get q.id = some q) ∧ Plain s) → ∃ x, formSections get ss r = .ok x
  | [], r, _ => ⟨_, rfl⟩
  | s :: ss, r, hs => by
    obtain ⟨h1, h2, h3⟩ := hs s (by simp)
    obtain ⟨w, r1, hw⟩ := select_goes get s h2 h3 h1 r
    obtain ⟨⟨rest, r2⟩, hr⟩ := formSections_goes get ss r1 fun t ht => hs t (by simp [ht])
    unfold formSections
    simp only [hw, hr]
    exact ⟨_, rfl⟩

theorem formParts_goes (get : Str → Option Part) : ∀ (ps : List TPart) (r : Rng),
    (∀ p ∈ ps, ∀ s ∈ p.sections, s.isSect = true ∧ (∀ q ∈ s.all, get q.id = some q) ∧ Plain s) →
    ∃ x, formParts get ps r = .ok x
  | [], r, _ => ⟨_, rfl⟩
  | p :: ps, r, hs => by
    obtain ⟨⟨ids, r1⟩, h1⟩ := formSections_goes get p.sections r (hs p (by simp))
    obtain ⟨⟨rest, r2⟩, hr⟩ := formParts_goes get ps r1 fun t ht => hs t (by simp [ht])
    unfold formParts
    simp only [h1, hr]
    exact ⟨_, rfl⟩

/-- **C83**, for tests that shuffle items only: if every selection rule can be satisfied a form is made, whatever
chance does. -/
theorem form_made_partial (test : List TPart) (r : Rng) (hd : Distinct test) (hs : SectionsOnly test)
    (hp : ∀ p ∈ test, PlainAll p.sections) : ∃ components, form test r = .ok components := by
  obtain ⟨⟨ids, r'⟩, hx⟩ := formParts_goes (getPart test) test r (fun p hpm s hsm =>
    ⟨hs p hpm s hsm, fun q hq => getPart_of_mem hd hpm hsm hq, plainAll_mem (hp p hpm) hsm⟩)
  unfold form
  simp only [hx]
  exact ⟨_, rfl⟩

/-! ## Every arrangement is a form -/

theorem formSections_all (get : Str → Option Part) : ∀ (ss : List Part) (t : Rng) (w : List Str),
    (∀ s ∈ ss, s.isSect = true ∧ (∀ q ∈ s.all, get q.id = some q) ∧ Plain s) → Sections ss w →
    ∃ r, formSections get ss r = .ok (w.map some, t)
  | [], t, w, _, h => by
    cases h
    exact ⟨t, rfl⟩
  | s :: ss, t, w, hs, h => by
    obtain ⟨h1, h2, h3⟩ := hs s (by simp)
    cases h with
    | cons hw hrest =>
      rename_i v rest
      obtain ⟨r1, hr1⟩ := formSections_all get ss t rest (fun t ht => hs t (by simp [ht])) hrest
      cases hw with
      | item => simp [Part.isSect] at h1
      | sect ha =>
        rename_i id rq fx v k sl sh kids pieces
        obtain ⟨r, hr⟩ := select_reach get _ h2 h3 pieces r1 ha
        refine ⟨r, ?_⟩
        unfold formSections
        simp only [hr, hr1]
        simp [Part.id]

theorem formParts_all (get : Str → Option Part) : ∀ (ps : List TPart) (t : Rng) (w : List Str),
    (∀ p ∈ ps, ∀ s ∈ p.sections, s.isSect = true ∧ (∀ q ∈ s.all, get q.id = some q) ∧ Plain s) → Parts ps w →
    ∃ r, formParts get ps r = .ok (w.map some, t)
  | [], t, w, _, h => by
    cases h
    exact ⟨t, rfl⟩
  | p :: ps, t, w, hs, h => by
    cases h with
    | cons hw hrest =>
      rename_i v rest
      obtain ⟨r1, hr1⟩ := formParts_all get ps t rest (fun t ht => hs t (by simp [ht])) hrest
      obtain ⟨r, hr⟩ := formSections_all get p.sections r1 v (hs p (by simp)) hw
      refine ⟨r, ?_⟩
      unfold formParts
      simp only [hr, hr1]
      simp

/-- **C84**, for tests that shuffle items only: every arrangement that the rules allow is a form that chance can
make. -/
theorem form_every_partial (test : List TPart) (ids : List Str) (hd : Distinct test) (hs : SectionsOnly test)
    (hp : ∀ p ∈ test, PlainAll p.sections) (h : Parts test ids) :
    ∃ r, form test r = .ok (some [] :: ids.map some) := by
  obtain ⟨r, hr⟩ := formParts_all (getPart test) test (fun _ => 0) ids (fun p hpm s hsm =>
    ⟨hs p hpm s hsm, fun q hq => getPart_of_mem hd hpm hsm hq, plainAll_mem (hp p hpm) hsm⟩) h
  refine ⟨r, ?_⟩
  unfold form
  simp only [hr]

/-- A test that shuffles items only, with a section that stays and a choice. -/
def plainSample : List TPart :=
  [⟨"P".toList, [
    .sect "A".toList false false true true none true [
      .item "A1".toList false false,
      .sect "B".toList false true false true (some (1, false)) false [
        .item "B1".toList false false, .item "B2".toList false false],
      .item "A2".toList false false]]⟩]

theorem plainSample_plain : Distinct plainSample ∧ SectionsOnly plainSample ∧ ∀ p ∈ plainSample, PlainAll p.sections := by
  refine ⟨by unfold Distinct; decide +kernel, ?_, ?_⟩
  · intro p hp s hs
    simp [plainSample] at hp
    subst hp
    simp at hs
    subst hs
    rfl
  · intro p hp
    simp [plainSample] at hp
    subst hp
    simp [PlainAll, Plain, Satisfiable, requiredCount, Part.required, Part.fixed, Part.isSect]

/-- A form of that test, in which the items changed places. -/
theorem plainSample_form : form plainSample (fun _ => 0) = .ok
    (["", "P", "A", "A2", "B", "B1", "-B", "A1", "-A", "-P"].map fun s => some s.toList) := by
  decide +kernel

/-! ## Selection -/

/-- Choosing fails just when there is no choice that the rule allows, and every choice can come out. -/
theorem choice_exact (selection : Option (Int × Bool)) (kids : List Part) :
    (∀ r, (∃ x, pick selection kids r = .ok x) ↔ ∃ sel, Rule selection kids sel) ∧
    (∀ r r' sel, pick selection kids r = .ok (sel, r') → Rule selection kids sel) ∧
    (∀ sel, Rule selection kids sel → ∃ r r', pick selection kids r = .ok (sel, r')) := by
  refine ⟨fun r => ⟨?_, ?_⟩, fun r r' sel h => pick_rule h, fun sel h => ?_⟩
  · rintro ⟨⟨sel, r'⟩, h⟩
    exact ⟨sel, pick_rule h⟩
  · rintro ⟨sel, h⟩
    exact (pick_ok selection kids r).2 (rule_satisfiable h)
  · obtain ⟨r, hr⟩ := pick_all h fun _ => 0
    exact ⟨r, _, hr⟩

/-! ## What goes wrong -/

theorem place_pool (get : Str → Option Part) (e : Bool) : ∀ (l : List (Part × Run)) (slots : Slots) (pool : List Str)
    (r : Rng) (slots' : Slots) (pool' : List Str) (r' : Rng),
    place get e true l slots pool r = .ok (slots', pool', r') →
    (∀ g ∈ pool, g ∈ pool') ∧ ∀ x ∈ l, x.1.fixed = false → x.1.mixed = false → x.1.id ∈ pool'
  | [], slots, pool, r, slots', pool', r', h => by
    injection h with h; injection h with h1 h; injection h with h2 h3
    subst h2
    exact ⟨fun g hg => hg, by simp⟩
  | (child, run) :: rest, slots, pool, r, slots', pool', r', h => by
    unfold place at h
    split at h
    · split at h
      · rename_i hm
        cases hr : run false r with
        | error e => simp only [hr] at h; cases h
        | ok x =>
          obtain ⟨ids, r1⟩ := x
          simp only [hr] at h
          cases hmi : mixIn get ids pool with
          | error e => simp only [hmi] at h; cases h
          | ok pool0 =>
            simp only [hmi] at h
            obtain ⟨q, hq1, hq2⟩ := mixIn_spec get ids pool pool0 hmi
            obtain ⟨h1, h2⟩ := place_pool get e rest _ _ _ _ _ _ h
            refine ⟨fun g hg => h1 g (by rw [hq2]; simp [hg]), ?_⟩
            intro x hx hfx hmx
            rcases List.mem_cons.1 hx with rfl | hx
            · simp [hm] at hmx
            · exact h2 x hx hfx hmx
      · obtain ⟨h1, h2⟩ := place_pool get e rest _ _ _ _ _ _ h
        refine ⟨fun g hg => h1 g (by simp [hg]), ?_⟩
        intro x hx hfx hmx
        rcases List.mem_cons.1 hx with rfl | hx
        · exact h1 _ (by simp)
        · exact h2 x hx hfx hmx
    · rename_i hf
      have hfx : child.fixed = true := by simpa using hf
      have key : ∀ {slots r}, place get e true rest slots pool r = .ok (slots', pool', r') →
          (∀ g ∈ pool, g ∈ pool') ∧ ∀ x ∈ (child, run) :: rest, x.1.fixed = false → x.1.mixed = false → x.1.id ∈ pool' := by
        intro slots r h
        obtain ⟨h1, h2⟩ := place_pool get e rest _ _ _ _ _ _ h
        refine ⟨h1, ?_⟩
        intro x hx hfx' hmx
        rcases List.mem_cons.1 hx with rfl | hx
        · simp [hfx] at hfx'
        · exact h2 x hx hfx' hmx
      split at h
      · cases hr : run true r with
        | error e => simp only [hr] at h; cases h
        | ok x =>
          obtain ⟨ids, r1⟩ := x
          simp only [hr] at h
          exact key h
      · exact key h

/-- Without a selection all children are chosen. -/
theorem rule_none_all {kids : List Part} {sel : List Nat} (h : Rule none kids sel) {i : Nat} (hi : i < kids.length) :
    i ∈ sel := by
  refine Classical.byContradiction fun hn => ?_
  have h1 := nodup_length_le (l := i :: sel) (m := List.range kids.length)
    (List.nodup_cons.2 ⟨hn, h.once (by simp)⟩) (by
      intro a ha
      rcases List.mem_cons.1 ha with rfl | ha
      · exact List.mem_range.2 hi
      · exact List.mem_range.2 (h.children a ha))
  have h2 := h.number
  simp [target] at h1 h2
  omega

/-- What goes wrong with **C83**: a section that shuffles a section (one that is shown as a whole) has no form at
all. -/
theorem shuffled_section_fails (get : Str → Option Part) (id : Str) (rq fx v k : Bool) (kids : List Part) (kid : Part)
    (hk : kid ∈ kids) (hs : kid.isSect = true) (hf : kid.fixed = false) (hm : kid.mixed = false)
    (hg : get kid.id = some kid) (e : Bool) (r : Rng) :
    ∃ err, select get (.sect id rq fx v k none true kids) e r = .error err := by
  cases h : select get (.sect id rq fx v k none true kids) e r with
  | error err => exact ⟨err, rfl⟩
  | ok x =>
    exfalso
    obtain ⟨ids, r'⟩ := x
    rw [select] at h
    cases hp : pick none kids r with
    | error x => simp only [hp] at h; cases h
    | ok x =>
      obtain ⟨sel, r1⟩ := x
      simp only [hp] at h
      cases hpl : place get e true (sel.filterMap fun i => (kids.zip (selects get kids))[i]?) [] [] r1 with
      | error x => simp only [hpl] at h; cases h
      | ok x =>
        obtain ⟨slots, pool, r2⟩ := x
        simp only [hpl] at h
        obtain ⟨i, hi, hik⟩ := List.getElem_of_mem hk
        have hsel := rule_none_all (pick_rule hp) hi
        have hlen := selects_length get kids
        have hmem := (place_pool get e _ _ _ _ _ _ _ hpl).2 (kid, (selects get kids)[i]'(by omega)) (by
          refine List.mem_filterMap.2 ⟨i, hsel, ?_⟩
          rw [List.getElem?_eq_getElem (by simp [hlen, hi])]
          simp [hik]) hf hm
        have hslots : ∃ cs, slots = slotsOf cs := by
          have : ∀ s : Slots, ∃ cs, s = slotsOf cs := by
            intro s
            induction s with
            | nil => exact ⟨[], rfl⟩
            | cons a s ih =>
              obtain ⟨cs, rfl⟩ := ih
              cases a with
              | none => exact ⟨none :: cs, rfl⟩
              | some a => exact ⟨some [a] :: cs, rfl⟩
          exact this slots
        obtain ⟨cs, rfl⟩ := hslots
        obtain ⟨p, hp1, hp2⟩ := mixUp_items h kid.id hmem
        rw [hg] at hp1
        injection hp1 with hp1
        subst hp1
        simp [hs] at hp2

/-- A test that shuffles a section. -/
def shuffledSection : List TPart :=
  [⟨"P".toList, [
    .sect "A".toList false false true true none true [
      .item "A1".toList false false,
      .sect "B".toList false false true true none false [.item "B1".toList false false]]]⟩]

/-- What goes wrong with **C83**, for a test: its rules can be followed but it has no form. -/
theorem shuffled_section_no_form : Distinct shuffledSection ∧ SectionsOnly shuffledSection ∧
    Parts shuffledSection (["P", "A", "B", "B1", "-B", "A1", "-A", "-P"].map String.toList) ∧
    ∀ r, ∃ err, form shuffledSection r = .error err := by
  have hd : Distinct shuffledSection := by unfold Distinct; decide +kernel
  refine ⟨hd, ?_, ?_, ?_⟩
  · intro p hp s hs
    simp [shuffledSection] at hp
    subst hp
    simp at hs
    subst hs
    rfl
  · have hb : Whole (.sect "B".toList false false true true none false [.item "B1".toList false false])
        ["B".toList, "B1".toList, closing "B".toList] :=
      .sect (pieces := [["B1".toList]]) (.mk [0] [[["B1".toList]]] [] []
        ⟨rfl, by simp, by simp, by intro i kid h1 h2; cases i <;> simp at h1; subst h1; simp [Part.required] at h2, by simp⟩
        (.still rfl (.item _ _ _) .nil) (List.Perm.refl _))
    have ha : Whole (.sect "A".toList false false true true none true [.item "A1".toList false false,
        .sect "B".toList false false true true none false [.item "B1".toList false false]])
        ["A".toList, "B".toList, "B1".toList, closing "B".toList, "A1".toList, closing "A".toList] :=
      .sect (pieces := [["B".toList, "B1".toList, closing "B".toList], ["A1".toList]])
        (.mk [0, 1] [[["B".toList, "B1".toList, closing "B".toList]], [["A1".toList]]]
          [["B".toList, "B1".toList, closing "B".toList], ["A1".toList]]
          [["A1".toList], ["B".toList, "B1".toList, closing "B".toList]]
          ⟨rfl, by simp, by intro i hi; simp at hi; simp; omega, by
            intro i kid h1 h2
            match i, h1 with
            | 0, _ => simp
            | 1, _ => simp
            | n + 2, h1 => simp at h1, by simp⟩
          (.floats rfl rfl (by simp) (.item _ _ _) (.floats rfl rfl (by simp) hb .nil)) (List.Perm.swap _ _ _))
    exact .cons (p := ⟨"P".toList, _⟩) (.cons ha .nil) .nil
  · intro r
    obtain ⟨err, he⟩ := shuffled_section_fails (getPart shuffledSection) "A".toList false false true true
      [.item "A1".toList false false, .sect "B".toList false false true true none false [.item "B1".toList false false]]
      (.sect "B".toList false false true true none false [.item "B1".toList false false]) (by simp) rfl rfl rfl
      (getPart_of_mem hd (p := shuffledSection[0]) (by simp [shuffledSection]) (s := shuffledSection[0].sections[0]'(by simp [shuffledSection]))
        (by simp [shuffledSection]) (by simp [shuffledSection, Part.all, allOf])) true r
    refine ⟨err, ?_⟩
    rw [form, shuffledSection, formParts, formSections]
    rw [shuffledSection] at he
    simp only [he]

/-- A test in which a section that selects nothing is mixed into its parent. -/
def emptyMix : List TPart :=
  [⟨"P".toList, [
    .sect "A".toList false false true true none true [
      .sect "B".toList true false false false (some (0, false)) false [.item "B1".toList false false]]]⟩]

/-- What goes wrong with **C82**: a form with `None` among its identifiers. -/
theorem form_arranged_refuted : Distinct emptyMix ∧ SectionsOnly emptyMix ∧
    ∀ r, form emptyMix r = .ok [some [], some "P".toList, some "A".toList, none, some "-A".toList, some "-P".toList] := by
  refine ⟨by unfold Distinct; decide +kernel, ?_, fun r => rfl⟩
  intro p hp s hs
  simp [emptyMix] at hp
  subst hp
  simp at hs
  subst hs
  rfl

/-- What goes wrong with **C83**: with an item beside it there is no form. -/
theorem empty_mix_no_form (r : Rng) : form [⟨"P".toList, [
    .sect "A".toList false false true true none true [.item "A1".toList true false,
      .sect "B".toList true false false false (some (0, false)) false [.item "B1".toList false false]]]⟩] r
    = .error .indexError := rfl

/-! ## Looking up -/

/-- The places of an identifier in a form. -/
def Placed (components : Slots) (id : Str) (is : List Nat) : Prop :=
  is.Pairwise (· < ·) ∧ ∀ i, i ∈ is ↔ components[i]? = some (some id)

theorem note_lookup (k x : Option Str) (i : Nat) : ∀ m : List (Option Str × List Nat),
    ((note k i m).lookup x).getD [] = if x = k then (m.lookup x).getD [] ++ [i] else (m.lookup x).getD []
  | [] => by
    unfold note
    by_cases h : x = k
    · subst h; simp
    · have : (x == k) = false := by simpa using h
      simp [List.lookup, this, h]
  | (k', is) :: m => by
    unfold note
    by_cases hk : k' = k
    · subst hk
      rw [if_pos rfl]
      by_cases h : x = k'
      · subst h; simp
      · have : (x == k') = false := by simpa using h
        simp [List.lookup, this, h]
    · rw [if_neg hk]
      by_cases h : x = k'
      · subst h; simp [hk]
      · have : (x == k') = false := by simpa using h
        simp only [List.lookup, this]
        exact note_lookup k x i m

theorem noteAll_lookup (x : Option Str) : ∀ (ks : Slots) (i : Nat) (m : List (Option Str × List Nat)),
    ∃ t, ((noteAll ks i m).lookup x).getD [] = (m.lookup x).getD [] ++ t ∧ t.Pairwise (· < ·) ∧
      (∀ j ∈ t, i ≤ j) ∧ ∀ j, i + j ∈ t ↔ ks[j]? = some x
  | [], i, m => ⟨[], by simp [noteAll], .nil, by simp, by simp⟩
  | k :: ks, i, m => by
    obtain ⟨t, h1, h2, h3, h4⟩ := noteAll_lookup x ks (i + 1) (note k i m)
    have hshift : ∀ j, i + (j + 1) ∈ t ↔ ks[j]? = some x := by
      intro j; rw [← h4 j, show i + 1 + j = i + (j + 1) by omega]
    rw [note_lookup] at h1
    unfold noteAll
    by_cases h : x = k
    · subst h
      rw [if_pos rfl] at h1
      refine ⟨i :: t, by rw [h1]; simp, List.pairwise_cons.2 ⟨fun j hj => by have := h3 j hj; omega, h2⟩, ?_, ?_⟩
      · intro j hj
        rcases List.mem_cons.1 hj with rfl | hj
        · omega
        · have := h3 j hj; omega
      · intro j
        cases j with
        | zero => simp
        | succ j =>
          rw [List.getElem?_cons_succ, ← hshift j]
          simp
    · rw [if_neg h] at h1
      refine ⟨t, h1, h2, fun j hj => by have := h3 j hj; omega, ?_⟩
      intro j
      cases j with
      | zero =>
        simp only [Nat.add_zero, List.getElem?_cons_zero]
        constructor
        · intro hm; have := h3 i hm; omega
        · intro e; injection e with e; exact absurd e.symm h
      | succ j => rw [List.getElem?_cons_succ]; exact hshift j

/-- **C85** -/
theorem form_find (components : Slots) (id : Str) : Placed components id (find components id) := by
  obtain ⟨t, h1, h2, h3, h4⟩ := noteAll_lookup (some id) components 0 []
  have : find components id = t := by
    unfold find
    simp at h1
    rw [← h1]
    cases (noteAll components 0 []).lookup (some id) <;> rfl
  rw [this]
  refine ⟨h2, fun i => ?_⟩
  rw [← h4 i, Nat.zero_add]

end Verif.Props
