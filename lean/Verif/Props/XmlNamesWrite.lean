import Verif.Props.XmlNamesRead
import Verif.Props.CpUnique

/-!
# Writing names with prefixes
-/

namespace Verif.Props.Names
open Verif Verif.PyXml.Names

/-! ## Dictionaries -/

theorem get_cons {α : Type} (k x : Str) (v : α) (l : List (Str × α)) :
    PyXml.Names.get k ((x, v) :: l) = if x = k then some v else PyXml.Names.get k l := rfl

theorem get_mem {α : Type} {k : Str} {v : α} : ∀ {l : List (Str × α)}, PyXml.Names.get k l = some v → (k, v) ∈ l
  | [], h => by cases h
  | (x, w) :: l, h => by
    rw [get_cons] at h
    by_cases hx : x = k
    · rw [if_pos hx] at h
      cases h
      rw [hx]
      exact List.mem_cons_self
    · rw [if_neg hx] at h
      exact List.mem_cons_of_mem _ (get_mem h)

theorem get_none {α : Type} {k : Str} : ∀ {l : List (Str × α)}, PyXml.Names.get k l = none → ∀ e ∈ l, e.1 ≠ k
  | [], _ => by simp
  | (x, w) :: l, h => by
    rw [get_cons] at h
    by_cases hx : x = k
    · rw [if_pos hx] at h; cases h
    · rw [if_neg hx] at h
      intro e he
      rcases List.mem_cons.1 he with rfl | he
      · exact hx
      · exact get_none h e he

theorem get_filter {α : Type} {k p : Str} (h : p ≠ k) : ∀ (l : List (Str × α)),
    PyXml.Names.get p (l.filter fun e => e.1 ≠ k) = PyXml.Names.get p l
  | [] => rfl
  | (x, w) :: l => by
    by_cases hx : x = k
    · rw [List.filter_cons_of_neg (by simp [hx]), get_filter h l, get_cons, if_neg (fun e => h (e.symm.trans hx))]
    · rw [List.filter_cons_of_pos (by simp [hx]), get_cons, get_cons, get_filter h l]

theorem get_put {α : Type} (k p : Str) (v : α) (l : List (Str × α)) :
    PyXml.Names.get p (put k v l) = if k = p then some v else PyXml.Names.get p l := by
  unfold put
  rw [get_cons]
  by_cases h : k = p
  · rw [if_pos h, if_pos h]
  · rw [if_neg h, if_neg h, get_filter (fun e => h e.symm)]

theorem put_keys {α : Type} (k : Str) (v : α) (l : List (Str × α)) (h : (l.map Prod.fst).Nodup) : ((put k v l).map Prod.fst).Nodup := by
  unfold put
  rw [List.map_cons, List.nodup_cons]
  refine ⟨?_, ?_⟩
  · intro hm
    obtain ⟨e, he, hk⟩ := List.mem_map.1 hm
    have := (List.mem_filter.1 he).2
    simp at this
    exact this hk
  · exact List.Nodup.sublist (List.Sublist.map _ List.filter_sublist) h

/-! ## Scopes -/

/-- The declarations in force. -/
abbrev spaces (scope : List Maps) : List (List (Str × Str)) := scope.map Maps.toNS

theorem search_cons {D : Str → Prop} {m : Maps} (hm : m.Ok D) (p : Str) (r : List (List (Str × Str))) :
    searchNS p (m.toNS :: r) = match PyXml.Names.get p m.toNS with
      | some u => some u
      | none => searchNS p r := by
  rw [searchNS]
  cases h : PyXml.Names.get p m.toNS with
  | none => rfl
  | some u =>
    cases u with
    | nil => exact absurd rfl (hm.clean _ (get_mem h)).2.2.2.1
    | cons c u => rfl

theorem search_prefix {D : Str → Prop} (u p : Str) : ∀ (r inner : List Maps), (∀ m ∈ inner, m.Ok D) → (∀ m ∈ r, m.Ok D) →
    searchPrefix u inner r = some p → searchNS p (spaces (inner ++ r)) = some u ∧ ∃ m ∈ r, (p, u) ∈ m.toNS
  | [], _, _, _, h => by cases h
  | m :: r, inner, hi, hr, h => by
    have hm := hr m List.mem_cons_self
    have hnext : searchPrefix u (inner ++ [m]) r = some p →
        searchNS p (spaces (inner ++ m :: r)) = some u ∧ ∃ x ∈ m :: r, (p, u) ∈ x.toNS := by
      intro h
      obtain ⟨h1, x, hx, h2⟩ := search_prefix u p r (inner ++ [m]) (fun x hx => by
        rcases List.mem_append.1 hx with hx | hx
        · exact hi x hx
        · rw [List.mem_singleton.1 hx]; exact hm) (fun x hx => hr x (List.mem_cons_of_mem _ hx)) h
      rw [List.append_assoc] at h1
      exact ⟨h1, x, List.mem_cons_of_mem _ hx, h2⟩
    rw [searchPrefix] at h
    cases hg : PyXml.Names.get u m.toPrefix with
    | none => rw [hg] at h; exact hnext h
    | some q =>
      rw [hg] at h
      simp only at h
      by_cases hany : (inner.any fun x => (PyXml.Names.get q x.toNS).isSome) = true
      · rw [if_pos hany] at h; exact hnext h
      · rw [if_neg hany] at h
        cases h
        have hf := hm.fits u p hg
        refine ⟨?_, m, List.mem_cons_self, get_mem hf⟩
        have : ∀ (l : List Maps), (∀ x ∈ l, x.Ok D) → (∀ x ∈ l, PyXml.Names.get p x.toNS = none) →
            searchNS p (spaces (l ++ m :: r)) = some u := by
          intro l
          induction l with
          | nil =>
            intro _ _
            rw [List.nil_append, spaces, List.map_cons, search_cons hm, hf]
          | cons x l ih =>
            intro h1 h2
            rw [List.cons_append, spaces, List.map_cons, search_cons (h1 x List.mem_cons_self), h2 x List.mem_cons_self]
            exact ih (fun y hy => h1 y (List.mem_cons_of_mem _ hy)) (fun y hy => h2 y (List.mem_cons_of_mem _ hy))
        apply this inner hi
        intro x hx
        cases hgx : PyXml.Names.get p x.toNS with
        | none => rfl
        | some v =>
          exfalso
          apply hany
          rw [List.any_eq_true]
          exact ⟨x, hx, by rw [hgx]; rfl⟩

/-- What a prefix that is used for a namespace has to be. -/
structure Fits (D : Str → Prop) (scope : List Maps) (u p : Str) : Prop where
  bound : getNS p (spaces scope) = some u
  colon : ':' ∉ p
  free : Free p
  default : p = [] → D u

theorem get_prefix {D : Str → Prop} {scope : List Maps} (hs : ∀ m ∈ scope, m.Ok D) {u p : Str} (hu : u ≠ noNS)
    (h : getPrefix (some u) scope = some p) : Fits D scope u p := by
  unfold getPrefix at h
  simp only at h
  by_cases hx : u = xmlNS
  · rw [if_pos hx] at h
    cases h
    exact ⟨by rw [hx]; rfl, by decide, by unfold Free; decide, fun h => nomatch h⟩
  · rw [if_neg hx, if_neg hu] at h
    obtain ⟨h1, m, hm, h2⟩ := search_prefix u p scope [] (by simp) hs h
    have hc := (hs m hm).clean _ h2
    refine ⟨?_, hc.1, hc.2.2.1, ?_⟩
    · unfold getNS
      rw [if_neg hc.2.1]
      exact h1
    · rintro rfl
      refine (hs m hm).default u ?_
      cases hg : PyXml.Names.get [] m.toNS with
      | none => exact absurd rfl (get_none hg _ h2)
      | some v =>
        have hv := get_mem hg
        have hk := (hs m hm).keys
        have : ∀ (l : List (Str × Str)), (l.map Prod.fst).Nodup → ([], u) ∈ l → ([], v) ∈ l → u = v := by
          intro l
          induction l with
          | nil => intro _ h _; cases h
          | cons e l ih =>
            intro hn hu hv
            rw [List.map_cons, List.nodup_cons] at hn
            rcases List.mem_cons.1 hu with hu | hu <;> rcases List.mem_cons.1 hv with hv | hv
            · rw [← hu] at hv
              exact (Prod.mk.inj hv).2.symm
            · exfalso
              apply hn.1
              rw [← hu]
              exact List.mem_map.2 ⟨_, hv, rfl⟩
            · exfalso
              apply hn.1
              rw [← hv]
              exact List.mem_map.2 ⟨_, hu, rfl⟩
            · exact ih hn.2 hu hv
        rw [this m.toNS hk h2 hv]

/-! ## New prefixes -/

theorem numbered_inj {a b : Nat} (h : numbered a = numbered b) : a = b := by
  have := List.append_cancel_left h
  exact Verif.CP.strNat_inj _ _ this

theorem numbered_clean (k : Nat) : ':' ∉ numbered k ∧ numbered k ≠ "xml".toList ∧ Free (numbered k) ∧ numbered k ≠ [] := by
  refine ⟨?_, ?_, ?_, ?_⟩
  · unfold numbered
    intro h
    rcases List.mem_append.1 h with h | h
    · exact absurd h (by decide)
    · exact Verif.CP.strNat_no (by decide) k h
  · intro h
    exact absurd (congrArg List.head? h) (by unfold numbered; simp)
  · intro h
    have := congrArg List.head? h
    unfold numbered at this
    simp at this
  · intro h
    exact absurd (congrArg List.head? h) (by unfold numbered; simp)

theorem searchNS_mem {p u : Str} : ∀ {s : List (List (Str × Str))}, searchNS p s = some u → (p, u) ∈ s.flatten
  | [], h => by cases h
  | m :: r, h => by
    rw [searchNS] at h
    rw [List.flatten_cons]
    split at h
    · next c v hg => cases h; exact List.mem_append_left _ (get_mem hg)
    · exact List.mem_append_right _ (searchNS_mem h)

theorem newPrefixFrom_some {s : List (List (Str × Str))} {p : Str} : ∀ (fuel k : Nat), newPrefixFrom s fuel k = some p →
    getNS p s = none ∧ ∃ j, p = numbered j
  | 0, _, h => by cases h
  | fuel + 1, k, h => by
    rw [newPrefixFrom] at h
    cases hg : getNS (numbered k) s with
    | none =>
      rw [hg] at h
      cases h
      exact ⟨hg, k, rfl⟩
    | some u =>
      rw [hg] at h
      exact newPrefixFrom_some fuel (k + 1) h

theorem newPrefixFrom_none {s : List (List (Str × Str))} : ∀ (fuel k : Nat), newPrefixFrom s fuel k = none →
    ∀ j, k ≤ j → j < k + fuel → (getNS (numbered j) s).isSome
  | 0, k, _, j, h1, h2 => by omega
  | fuel + 1, k, h, j, h1, h2 => by
    rw [newPrefixFrom] at h
    by_cases hg : (getNS (numbered k) s).isSome = true
    · rw [if_pos hg] at h
      by_cases hj : j = k
      · rw [hj]; exact hg
      · exact newPrefixFrom_none fuel (k + 1) h j (by omega) (by omega)
    · rw [if_neg hg] at h; cases h

/-- A new prefix is found: the search ends. -/
theorem new_prefix (s : List (List (Str × Str))) : ∃ p, newPrefix s = some p := by
  cases h : newPrefix s with
  | some p => exact ⟨p, rfl⟩
  | none =>
    exfalso
    have hall := newPrefixFrom_none _ _ h
    have hl := nodup_subset_length ((List.range (s.flatten.length + 1)).map fun j => numbered (j + 1)) (s.flatten.map Prod.fst)
      (by
        rw [List.nodup_iff_pairwise_ne, List.pairwise_map]
        refine (List.nodup_iff_pairwise_ne.1 List.nodup_range).imp ?_
        intro a b hne hab
        have := numbered_inj hab
        omega)
      (by
        intro x hx
        obtain ⟨j, hj, rfl⟩ := List.mem_map.1 hx
        rw [List.mem_range] at hj
        have := hall (j + 1) (by omega) (by omega)
        rw [Option.isSome_iff_exists] at this
        obtain ⟨u, hu⟩ := this
        unfold getNS at hu
        rw [if_neg (numbered_clean (j + 1)).2.1] at hu
        exact List.mem_map.2 ⟨_, searchNS_mem hu, rfl⟩)
    simp only [List.length_map, List.length_range] at hl
    omega

/-! ## Declarations of an element -/

/-- A new declaration of an element. -/
theorem make_ok {D : Str → Prop} {m m' : Maps} {outer : List Maps} {u p : Str} (hm : m.Ok D) (hu : u ≠ []) (hun : u ≠ noNS)
    (hc : ':' ∉ p) (hx : p ≠ "xml".toList) (hf : Free p) (hd : p = [] → D u) (h : makePrefix m u p = .ok m') :
    m'.Ok D ∧ getNS p (spaces (m' :: outer)) = some u ∧
    ∀ q, q ≠ p → getNS q (spaces (m' :: outer)) = getNS q (spaces (m :: outer)) := by
  unfold makePrefix at h
  by_cases hg : (PyXml.Names.get p m.toNS).isSome = true
  · rw [if_pos hg] at h; cases h
  · rw [if_neg hg] at h
    have hnone : PyXml.Names.get p m.toNS = none := by
      cases hx : PyXml.Names.get p m.toNS with
      | none => rfl
      | some v => rw [hx] at hg; exact absurd rfl hg
    cases h
    have hok : Maps.Ok D ⟨put p u m.toNS, put u p m.toPrefix⟩ := by
      refine ⟨?_, put_keys p u m.toNS hm.keys, ?_, ?_⟩
      · intro v q hv
        simp only [get_put] at hv ⊢
        by_cases huv : u = v
        · rw [if_pos huv] at hv
          cases hv
          rw [if_pos rfl, huv]
        · rw [if_neg huv] at hv
          have := hm.fits v q hv
          rw [if_neg]
          · exact this
          · rintro rfl
            rw [hnone] at this
            cases this
      · intro e he
        simp only [put, List.mem_cons] at he
        rcases he with rfl | he
        · exact ⟨hc, hx, hf, hu, hun⟩
        · exact hm.clean e (List.mem_filter.1 he).1
      · intro v hv
        simp only [get_put] at hv
        by_cases hp : p = []
        · rw [if_pos hp] at hv
          cases hv
          exact hd hp
        · rw [if_neg hp] at hv
          exact hm.default v hv
    refine ⟨hok, ?_, ?_⟩
    · unfold getNS
      rw [if_neg hx, spaces, List.map_cons, search_cons hok, get_put, if_pos rfl]
    · intro q hq
      unfold getNS
      by_cases hqx : q = "xml".toList
      · rw [if_pos hqx, if_pos hqx]
      · rw [if_neg hqx, if_neg hqx, spaces, List.map_cons, search_cons hok, get_put, if_neg (fun e => hq e.symm), spaces, List.map_cons,
          search_cons hm]

/-- Declarations are only added. -/
def Extends (outer : List Maps) (m m' : Maps) : Prop :=
  ∀ p u, getNS p (spaces (m :: outer)) = some u → getNS p (spaces (m' :: outer)) = some u

theorem element_prefix {D : Str → Prop} {m m' : Maps} {outer : List Maps} {u p : Str} (ho : ∀ x ∈ outer, x.Ok D) (hm : m.Ok D)
    (hu : u ≠ []) (hun : u ≠ noNS) (hd : D u) (h : elementPrefix outer m (some u) = .ok (p, m')) :
    m'.Ok D ∧ Fits D (m' :: outer) u p := by
  obtain ⟨c, v, rfl⟩ : ∃ c v, u = c :: v := by
    cases u with
    | nil => exact absurd rfl hu
    | cons c v => exact ⟨c, v, rfl⟩
  simp only [elementPrefix] at h
  cases hg : getPrefix (some (c :: v)) (m :: outer) with
  | some q =>
    rw [hg] at h
    cases h
    exact ⟨hm, get_prefix (fun x hx => by
      rcases List.mem_cons.1 hx with rfl | hx
      · exact hm
      · exact ho x hx) hun hg⟩
  | none =>
    rw [hg] at h
    cases hk : makePrefix m (c :: v) [] with
    | error e => rw [hk] at h; cases h
    | ok x =>
      rw [hk] at h
      cases h
      obtain ⟨h1, h2, _⟩ := make_ok (outer := outer) hm hu hun (by simp) (by decide) (by unfold Free; decide) (fun _ => hd) hk
      exact ⟨h1, h2, by simp, by unfold Free; decide, fun _ => hd⟩

theorem qname_free {p a : Str} (hp : Free p) (ha : Free a) : Free (qname p a) := by
  unfold qname
  by_cases h : p = []
  · rw [if_pos h]; exact ha
  · rw [if_neg h]
    intro he
    by_cases hl : 5 ≤ p.length
    · rw [List.take_append_of_le_length hl] at he
      exact hp he
    · have hmem : ':' ∈ (p ++ ':' :: a).take 5 := by
        rw [List.take_append]
        apply List.mem_append_right
        obtain ⟨j, hj⟩ : ∃ j, 5 - p.length = j + 1 := ⟨5 - p.length - 1, by omega⟩
        rw [hj, List.take_succ_cons]
        exact List.mem_cons_self
      rw [he] at hmem
      exact absurd hmem (by decide)

theorem free_not_decl {a : Str} (h : Free a) : ¬ IsDecl a := fun hd => not_free_of_decl hd h

/-- What is written for attributes. -/
theorem write_attrs {D : Str → Prop} {outer : List Maps} (ho : ∀ x ∈ outer, x.Ok D) : ∀ (attrs : List (AttrName × Str)) (m : Maps)
    (as : List (Str × Str)) (m' : Maps), m.Ok D →
    (∀ e ∈ attrs, Local e.1.2 ∧ (e.1.1 = some noNS ∨ ∃ u, e.1.1 = some u ∧ u ≠ [] ∧ u ≠ noNS ∧ ¬ D u)) →
    writeAttrs outer m attrs = .ok (as, m') →
    m'.Ok D ∧ Extends outer m m' ∧ (∀ e ∈ as, Free e.1) ∧
    ∀ env : Env, (∀ p u, getNS p (spaces (m' :: outer)) = some u → env p = some u) →
      AttrsMean env as (attrs.map fun a => (attrTree a.1, a.2))
  | [], m, as, m', hm, _, h => by
    rw [writeAttrs] at h
    cases h
    exact ⟨hm, fun _ _ h => h, by simp, fun _ _ => .nil⟩
  | ((ns, a), v) :: l, m, as, m', hm, ha, h => by
    have hscope : ∀ x ∈ m :: outer, x.Ok D := fun x hx => by
      rcases List.mem_cons.1 hx with rfl | hx
      · exact hm
      · exact ho x hx
    have hhead := ha _ List.mem_cons_self
    have htail := fun e he => ha e (List.mem_cons_of_mem ((ns, a), v) he)
    obtain ⟨⟨hcol, hfree⟩, hns⟩ := hhead
    simp only at hcol hfree hns
    rw [writeAttrs] at h
    rcases hns with rfl | ⟨u, rfl, hu, hun, hD⟩
    · have hg : getPrefix (some noNS) (m :: outer) = some [] := rfl
      rw [hg] at h
      simp only at h
      cases hr : writeAttrs outer m l with
      | error e => rw [hr] at h; cases h
      | ok r =>
        rw [hr] at h
        cases h
        obtain ⟨h1, h2, h3, h4⟩ := write_attrs ho l m r.1 r.2 hm htail hr
        refine ⟨h1, h2, ?_, ?_⟩
        · intro e he
          rcases List.mem_cons.1 he with rfl | he
          · exact hfree
          · exact h3 e he
        · intro env henv
          exact .attr (free_not_decl hfree) (.plain hcol) (h4 env henv)
    · have htree : attrTree (some u, a) = (some u, a) := by
        unfold attrTree
        rw [if_neg (fun e => hun (Option.some.inj e))]
      cases hg : getPrefix (some u) (m :: outer) with
      | some p =>
        have hfit := get_prefix hscope hun hg
        have hp : p ≠ [] := fun e => hD (hfit.default e)
        rw [hg] at h
        simp only at h
        cases hr : writeAttrs outer m l with
        | error e => rw [hr] at h; cases h
        | ok r =>
          rw [hr] at h
          cases h
          obtain ⟨h1, h2, h3, h4⟩ := write_attrs ho l m r.1 r.2 hm htail hr
          have hq := qname_free hfit.free hfree
          refine ⟨h1, h2, ?_, ?_⟩
          · intro e he
            rcases List.mem_cons.1 he with rfl | he
            · exact hq
            · exact h3 e he
          · intro env henv
            rw [List.map_cons, htree]
            refine .attr (free_not_decl hq) ?_ (h4 env henv)
            unfold qname
            rw [if_neg hp]
            exact .prefixed hp hfit.colon hcol (henv p u (h2 p u hfit.bound))
      | none =>
        rw [hg] at h
        simp only at h
        cases hn : newPrefix ((m :: outer).map Maps.toNS) with
        | none => rw [hn] at h; cases h
        | some p =>
          rw [hn] at h
          simp only [Option.getD_some] at h
          obtain ⟨hfresh, k, rfl⟩ := newPrefixFrom_some _ _ hn
          obtain ⟨c1, c2, c3, c4⟩ := numbered_clean k
          cases hk : makePrefix m u (numbered k) with
          | error e => rw [hk] at h; cases h
          | ok m1 =>
            rw [hk] at h
            obtain ⟨k1, k2, k3⟩ := make_ok (outer := outer) hm hu hun c1 c2 c3 (fun e => absurd e c4) hk
            cases hr : writeAttrs outer m1 l with
            | error e => simp only [bind, Except.bind, hr] at h; cases h
            | ok r =>
              simp only [bind, Except.bind, hr] at h
              cases h
              obtain ⟨h1, h2, h3, h4⟩ := write_attrs ho l m1 r.1 r.2 k1 htail hr
              have hq := qname_free c3 hfree
              refine ⟨h1, ?_, ?_, ?_⟩
              · intro q w hw
                apply h2
                rw [k3 q]
                · exact hw
                · rintro rfl
                  rw [spaces, hfresh] at hw
                  cases hw
              · intro e he
                rcases List.mem_cons.1 he with rfl | he
                · exact hq
                · exact h3 e he
              · intro env henv
                rw [List.map_cons, htree]
                refine .attr (free_not_decl hq) ?_ (h4 env henv)
                unfold qname
                rw [if_neg c4]
                exact .prefixed c4 c1 hcol (henv _ u (h2 _ u k2))

/-! ## What the declarations bind -/

theorem declare_name (e : Str × Str) : (if e.1 = [] then "xmlns".toList else "xmlns:".toList ++ e.1, e.2) = (declName e.1, e.2) := rfl

theorem value_declare (p : Str) (as : List (Str × Str)) (has : ∀ e ∈ as, Free e.1) : ∀ (l : List (Str × Str)),
    value (declName p) (declare l ++ as) = PyXml.Names.get p l
  | [] => by
    show value (declName p) as = none
    cases h : value (declName p) as with
    | none => rfl
    | some v => exact absurd (has _ (value_mem h)) (declName_not_free p)
  | (x, v) :: l => by
    have ih := value_declare p as has l
    show value (declName p) ((declName x, v) :: (declare l ++ as)) = _
    rw [value, get_cons, ih]
    by_cases h : x = p
    · rw [if_pos (by rw [h]), if_pos h]
    · rw [if_neg (fun e => h (declName_inj e)), if_neg h]

theorem get_append {α : Type} (p : Str) (b : List (Str × α)) : ∀ (a : List (Str × α)),
    PyXml.Names.get p (a ++ b) = match PyXml.Names.get p a with
      | some u => some u
      | none => PyXml.Names.get p b
  | [] => rfl
  | (x, v) :: a => by
    rw [List.cons_append, get_cons, get_cons, get_append p b a]
    by_cases h : x = p
    · rw [if_pos h, if_pos h]
    · rw [if_neg h, if_neg h]

theorem get_filter_none {α : Type} (p : Str) (f : Str × α → Bool) (hf : ∀ v, f (p, v) = true) : ∀ (l : List (Str × α)),
    PyXml.Names.get p (l.filter f) = PyXml.Names.get p l
  | [] => rfl
  | (x, v) :: l => by
    by_cases hx : x = p
    · subst hx
      rw [List.filter_cons_of_pos (hf v), get_cons, get_cons, if_pos rfl, if_pos rfl]
    · by_cases hk : f (x, v) = true
      · rw [List.filter_cons_of_pos hk, get_cons, get_cons, if_neg hx, if_neg hx, get_filter_none p f hf l]
      · rw [List.filter_cons_of_neg hk, get_cons, if_neg hx, get_filter_none p f hf l]

/-- All declarations in force at the root. -/
theorem get_prefixMap {D : Str → Prop} (p : Str) : ∀ (scope : List Maps), (∀ m ∈ scope, m.Ok D) →
    PyXml.Names.get p (prefixMap (spaces scope)) = searchNS p (spaces scope)
  | [], _ => rfl
  | m :: r, h => by
    have ih := get_prefixMap p r (fun x hx => h x (List.mem_cons_of_mem _ hx))
    rw [spaces, List.map_cons, prefixMap, search_cons (h m List.mem_cons_self), get_append]
    cases hg : PyXml.Names.get p m.toNS with
    | some u => rfl
    | none =>
      simp only
      rw [get_filter_none p _ (fun v => by simp [hg])]
      exact ih

theorem prefixMap_ok {D : Str → Prop} : ∀ (scope : List Maps), (∀ m ∈ scope, m.Ok D) →
    ((prefixMap (spaces scope)).map Prod.fst).Nodup ∧ ∀ e ∈ prefixMap (spaces scope), ∃ m ∈ scope, e ∈ m.toNS
  | [], _ => ⟨List.nodup_nil, by intro e he; cases he⟩
  | m :: r, h => by
    obtain ⟨h1, h2⟩ := prefixMap_ok r (fun x hx => h x (List.mem_cons_of_mem _ hx))
    rw [spaces, List.map_cons, prefixMap]
    refine ⟨?_, ?_⟩
    · rw [List.map_append, List.nodup_append]
      refine ⟨(h m List.mem_cons_self).keys, List.Nodup.sublist (List.Sublist.map _ List.filter_sublist) h1, ?_⟩
      rintro a ha b hb rfl
      obtain ⟨e, he, rfl⟩ := List.mem_map.1 ha
      obtain ⟨e', he', hee⟩ := List.mem_map.1 hb
      have := (List.mem_filter.1 he').2
      rw [hee] at this
      cases hg : PyXml.Names.get e.1 m.toNS with
      | none => exact get_none hg e he rfl
      | some v => rw [hg] at this; cases this
    · intro e he
      rcases List.mem_append.1 he with he | he
      · exact ⟨m, List.mem_cons_self, he⟩
      · obtain ⟨x, hx, hex⟩ := h2 e (List.mem_filter.1 he).1
        exact ⟨x, List.mem_cons_of_mem _ hx, hex⟩

/-- Two lists of declarations bind the same. -/
theorem agree_declare {scope : List (List (Str × Str))} {env : Env} {decls as : List (Str × Str)} (has : ∀ e ∈ as, Free e.1)
    (hclean : ∀ e ∈ decls, e.2 ≠ [])
    (h : ∀ p, p ≠ "xml".toList → (match PyXml.Names.get p decls with
      | some u => some u
      | none => env p) = searchNS p scope) : Agree scope (env.extend (declare decls ++ as)) := by
  intro p
  unfold getNS Env.extend
  by_cases hx : p = "xml".toList
  · rw [if_pos hx, if_pos hx]
  · rw [if_neg hx, if_neg hx, value_declare p as has, ← h p hx]
    cases hg : PyXml.Names.get p decls with
    | none => rfl
    | some u =>
      cases u with
      | nil => exact absurd rfl (hclean _ (get_mem hg))
      | cons c u => rfl

theorem attrOf_unique {env : Env} {a : Str} {n n' : Option Str × Str} (h : AttrOf env a n) (h' : AttrOf env a n') : n = n' := by
  cases h with
  | plain hc =>
    cases h' with
    | plain => rfl
    | prefixed _ _ _ _ => exact absurd (by simp) hc
  | @prefixed p l u h1 h2 h3 h4 =>
    generalize hq : p ++ ':' :: l = q at h'
    cases h' with
    | plain hc => exact absurd (by rw [← hq]; simp) hc
    | @prefixed p' l' u' k1 k2 k3 k4 =>
      have := congrArg (Py.split ':') hq
      rw [split_prefixed h2 h3, split_prefixed k2 k3] at this
      simp only [List.cons.injEq, and_true] at this
      rw [this.1, k4] at h4
      rw [← h4, this.2]

theorem attrsMean_mem {env : Env} {l : List (Str × Str)} {r : List ((Option Str × Str) × Str)} (h : AttrsMean env l r) :
    (∀ e ∈ l, Free e.1) → ∀ e ∈ l, ∃ n, AttrOf env e.1 n ∧ n ∈ r.map Prod.fst := by
  induction h with
  | nil => intro _ e he; cases he
  | decl hd _ _ => intro hf; exact absurd (hf _ List.mem_cons_self) (not_free_of_decl hd)
  | @attr a v n l r hd hat _ ih =>
    intro hf e he
    rcases List.mem_cons.1 he with rfl | he
    · exact ⟨n, hat, List.mem_cons_self⟩
    · obtain ⟨m, h1, h2⟩ := ih (fun e he => hf e (List.mem_cons_of_mem _ he)) e he
      exact ⟨m, h1, List.mem_cons_of_mem _ h2⟩

theorem attrsMean_nodup {env : Env} {l : List (Str × Str)} {r : List ((Option Str × Str) × Str)} (h : AttrsMean env l r) :
    (∀ e ∈ l, Free e.1) → (r.map Prod.fst).Nodup → (l.map Prod.fst).Nodup := by
  induction h with
  | nil => intro _ _; exact List.nodup_nil
  | decl hd _ _ => intro hf _; exact absurd (hf _ List.mem_cons_self) (not_free_of_decl hd)
  | @attr a v n l r hd hat hl ih =>
    intro hf hn
    rw [List.map_cons, List.nodup_cons] at hn ⊢
    have hf' := fun e he => hf e (List.mem_cons_of_mem (a, v) he)
    refine ⟨?_, ih hf' hn.2⟩
    intro hm
    obtain ⟨e, he, rfl⟩ := List.mem_map.1 hm
    obtain ⟨m, h1, h2⟩ := attrsMean_mem hl hf' e he
    rw [attrOf_unique h1 hat] at h2
    exact hn.1 h2

theorem attrsMean_declare {env : Env} {as : List (Str × Str)} {r : List ((Option Str × Str) × Str)} (h : AttrsMean env as r) :
    ∀ (l : List (Str × Str)), AttrsMean env (declare l ++ as) r
  | [] => h
  | (x, _) :: l => .decl ⟨x, rfl⟩ (attrsMean_declare h l)

theorem trees_nodup {D : Str → Prop} (attrs : List (AttrName × Str))
    (h : ∀ e ∈ attrs, Local e.1.2 ∧ (e.1.1 = some noNS ∨ ∃ u, e.1.1 = some u ∧ u ≠ [] ∧ u ≠ noNS ∧ ¬ D u))
    (hn : (attrs.map Prod.fst).Nodup) : ((attrs.map fun a => (attrTree a.1, a.2)).map Prod.fst).Nodup := by
  induction attrs with
  | nil => exact List.nodup_nil
  | cons e l ih =>
    rw [List.map_cons, List.nodup_cons] at hn
    rw [List.map_cons, List.map_cons, List.nodup_cons]
    refine ⟨?_, ih (fun e he => h e (List.mem_cons_of_mem _ he)) hn.2⟩
    intro hm
    rw [List.map_map] at hm
    obtain ⟨e', he', hee⟩ := List.mem_map.1 hm
    apply hn.1
    refine List.mem_map.2 ⟨e', he', ?_⟩
    have h1 := (h e List.mem_cons_self).2
    have h2 := (h e' (List.mem_cons_of_mem _ he')).2
    simp only [Function.comp] at hee
    obtain ⟨⟨a, b⟩, v⟩ := e
    obtain ⟨⟨a', b'⟩, v'⟩ := e'
    simp only at h1 h2 hee ⊢
    unfold attrTree at hee
    rcases h1 with rfl | ⟨u, rfl, _, hu, _⟩ <;> rcases h2 with rfl | ⟨u', rfl, _, hu', _⟩
    · simp at hee; rw [hee]
    · rw [if_neg (fun e => hu' (Option.some.inj e)), if_pos rfl] at hee
      simp at hee
    · rw [if_neg (fun e => hu (Option.some.inj e)), if_pos rfl] at hee
      simp at hee
    · rw [if_neg (fun e => hu (Option.some.inj e)), if_neg (fun e => hu' (Option.some.inj e))] at hee
      exact hee

/-- One element, given what its children do. -/
theorem write_elem {D : Str → Prop} {outer : List Maps} {m m1 m2 : Maps} {env : Env} {u name p : Str} {attrs : List (AttrName × Str)}
    {as decls : List (Str × Str)} {cs : List Raw} {ts : List Tree}
    (ho : ∀ x ∈ outer, x.Ok D) (hm : m.Ok D) (hu : u ≠ []) (hun : u ≠ noNS) (hD : D u) (hname : Local name)
    (hattrs : ∀ e ∈ attrs, Local e.1.2 ∧ (e.1.1 = some noNS ∨ ∃ u, e.1.1 = some u ∧ u ≠ [] ∧ u ≠ noNS ∧ ¬ D u))
    (hnodup : (attrs.map Prod.fst).Nodup) (h1 : elementPrefix outer m (some u) = .ok (p, m1)) (h2 : writeAttrs outer m1 attrs = .ok (as, m2))
    (hdecls : m2.Ok D → (decls.map Prod.fst).Nodup ∧ (∀ e ∈ decls, e.2 ≠ [] ∧ e.2 ≠ noNS) ∧
      ∀ p, p ≠ "xml".toList → (match PyXml.Names.get p decls with
        | some u => some u
        | none => env p) = searchNS p (spaces (m2 :: outer)))
    (hcs : m2.Ok D → Agree (spaces (m2 :: outer)) (env.extend (declare decls ++ as)) →
      MeanAll (env.extend (declare decls ++ as)) cs ts ∧ Raw.AllPlain cs) :
    Means env (.elem (qname p name) (declare decls ++ as) cs) (.elem (some u) name (attrs.map fun a => (attrTree a.1, a.2)) ts) ∧
      (Raw.elem (qname p name) (declare decls ++ as) cs).Plain := by
  obtain ⟨hm1, hfit⟩ := element_prefix ho hm hu hun hD h1
  obtain ⟨hm2, hext, hfree, hmean⟩ := write_attrs ho attrs m1 as m2 hm1 hattrs h2
  obtain ⟨hk, hne, hbind⟩ := hdecls hm2
  have ha := agree_declare hfree (fun e he => (hne e he).1) hbind
  obtain ⟨hc1, hc2⟩ := hcs hm2 ha
  have has := hmean (env.extend (declare decls ++ as)) (fun p u h => by rw [← ha p]; exact h)
  have htn := trees_nodup attrs hattrs hnodup
  refine ⟨.elem ?_ (attrsMean_declare has decls) ?_ htn hc1, ?_⟩
  · have hp := hext p u hfit.bound
    rw [ha p] at hp
    unfold qname
    by_cases hpe : p = []
    · rw [if_pos hpe, ← hp, hpe]
      exact .plain hname.1
    · rw [if_neg hpe]
      exact .prefixed hpe hfit.colon hname.1 hp
  · rw [List.map_append, List.nodup_append]
    refine ⟨?_, attrsMean_nodup has hfree htn, ?_⟩
    · unfold declare
      rw [List.map_map, List.nodup_iff_pairwise_ne, List.pairwise_map]
      rw [List.nodup_iff_pairwise_ne, List.pairwise_map] at hk
      exact hk.imp fun hne he => hne (declName_inj he)
    · rintro a ha b hb rfl
      obtain ⟨e, he, rfl⟩ := List.mem_map.1 ha
      obtain ⟨e', he', hee⟩ := List.mem_map.1 hb
      obtain ⟨d, hd, rfl⟩ := List.mem_map.1 he
      have := hfree e' he'
      rw [hee] at this
      exact declName_not_free d.1 this
  · rw [Raw.Plain]
    refine ⟨qname_free hfit.free hname.2, ?_, hc2⟩
    intro e he
    rcases List.mem_append.1 he with he | he
    · obtain ⟨d, hd, rfl⟩ := List.mem_map.1 he
      exact ⟨fun _ => hne d hd, fun h => absurd ⟨d.1, rfl⟩ h⟩
    · exact ⟨fun h => absurd (hfree e he) (not_free_of_decl h), fun _ => hfree e he⟩

mutual
theorem write_means {D : Str → Prop} : ∀ (n : Node) (outer : List Maps) (env : Env) (raw : Raw), (∀ x ∈ outer, x.Ok D) → n.Ok D →
    Agree (spaces outer) env → write outer false n = .ok raw → Means env raw n.tree ∧ raw.Plain
  | .text s, _, _, _, _, _, _, h => by
    rw [write] at h
    cases h
    exact ⟨.text, trivial⟩
  | .elem ns name attrs m cs, outer, env, raw, ho, hn, ha, h => by
    rw [Node.Ok] at hn
    obtain ⟨⟨u, rfl, hu, hun, hD⟩, hname, hattrs, hnodup, hm, hcs⟩ := hn
    rw [write] at h
    cases h1 : elementPrefix outer m (some u) with
    | error e => rw [h1] at h; cases h
    | ok pm =>
      obtain ⟨p, m1⟩ := pm
      rw [h1] at h
      simp only [bind, Except.bind] at h
      cases h2 : writeAttrs outer m1 attrs with
      | error e => rw [h2] at h; cases h
      | ok r =>
        obtain ⟨as, m2⟩ := r
        rw [h2] at h
        simp only at h
        cases h3 : writeAll (m2 :: outer) cs with
        | error e => rw [h3] at h; cases h
        | ok rs =>
          rw [h3] at h
          simp only [Bool.false_eq_true, if_false] at h
          cases h
          rw [Node.tree]
          refine write_elem ho hm hu hun hD hname hattrs hnodup h1 h2 ?_ ?_
          · intro hm2
            refine ⟨hm2.keys, fun e he => (hm2.clean e he).2.2.2, ?_⟩
            intro q hq
            rw [spaces, List.map_cons, search_cons hm2]
            have := ha q
            unfold getNS at this
            rw [if_neg hq] at this
            rw [← this]
          · intro hm2 hag
            exact writeAll_means cs (m2 :: outer) _ rs (fun x hx => by
              rcases List.mem_cons.1 hx with rfl | hx
              · exact hm2
              · exact ho x hx) hcs hag h3

theorem writeAll_means {D : Str → Prop} : ∀ (ns : List Node) (outer : List Maps) (env : Env) (raws : List Raw), (∀ x ∈ outer, x.Ok D) →
    Node.AllOk D ns → Agree (spaces outer) env → writeAll outer ns = .ok raws → MeanAll env raws (Node.trees ns) ∧ Raw.AllPlain raws
  | [], _, _, _, _, _, _, h => by
    rw [writeAll] at h
    cases h
    exact ⟨.nil, trivial⟩
  | n :: ns, outer, env, raws, ho, hn, ha, h => by
    rw [Node.AllOk] at hn
    rw [writeAll] at h
    cases h1 : write outer false n with
    | error e => rw [h1] at h; cases h
    | ok r =>
      rw [h1] at h
      simp only [bind, Except.bind] at h
      cases h2 : writeAll outer ns with
      | error e => rw [h2] at h; cases h
      | ok rs =>
        rw [h2] at h
        cases h
        obtain ⟨k1, k2⟩ := write_means n outer env r ho hn.1 ha h1
        obtain ⟨k3, k4⟩ := writeAll_means ns outer env rs ho hn.2 ha h2
        exact ⟨.cons k1 k3, k2, k4⟩
end

/-- **What is written means the tree**: when the namespaces of elements and those of attributes are kept apart. -/
theorem names_written (D : Str → Prop) (doc : Maps) (n : Node) (raw : Raw) (hdoc : doc.Ok D) (hn : n.Ok D)
    (h : writeRoot doc n = .ok raw) : Means Env.base raw n.tree ∧ raw.Plain := by
  unfold writeRoot at h
  have ho : ∀ x ∈ [doc], x.Ok D := fun x hx => by rw [List.mem_singleton.1 hx]; exact hdoc
  cases n with
  | text s =>
    rw [write] at h
    cases h
    exact ⟨.text, trivial⟩
  | elem ns name attrs m cs =>
    rw [Node.Ok] at hn
    obtain ⟨⟨u, rfl, hu, hun, hD⟩, hname, hattrs, hnodup, hm, hcs⟩ := hn
    rw [write] at h
    cases h1 : elementPrefix [doc] m (some u) with
    | error e => rw [h1] at h; cases h
    | ok pm =>
      obtain ⟨p, m1⟩ := pm
      rw [h1] at h
      simp only [bind, Except.bind] at h
      cases h2 : writeAttrs [doc] m1 attrs with
      | error e => rw [h2] at h; cases h
      | ok r =>
        obtain ⟨as, m2⟩ := r
        rw [h2] at h
        simp only at h
        cases h3 : writeAll [m2, doc] cs with
        | error e => rw [h3] at h; cases h
        | ok rs =>
          rw [h3] at h
          simp only [if_true] at h
          cases h
          rw [Node.tree]
          refine write_elem ho hm hu hun hD hname hattrs hnodup h1 h2 ?_ ?_
          · intro hm2
            have hall : ∀ x ∈ [m2, doc], x.Ok D := fun x hx => by
              rcases List.mem_cons.1 hx with rfl | hx
              · exact hm2
              · exact ho x hx
            obtain ⟨k1, k2⟩ := prefixMap_ok [m2, doc] hall
            refine ⟨k1, ?_, ?_⟩
            · intro e he
              obtain ⟨x, hx, hex⟩ := k2 e he
              exact ((hall x hx).clean e hex).2.2.2
            · intro q hq
              have := get_prefixMap q [m2, doc] hall
              rw [this]
              have hb : Env.base q = none := by unfold Env.base; rw [if_neg hq]
              rw [hb]
              cases searchNS q (spaces [m2, doc]) <;> rfl
          · intro hm2 hag
            exact writeAll_means cs [m2, doc] _ rs (fun x hx => by
              rcases List.mem_cons.1 hx with rfl | hx
              · exact hm2
              · exact ho x hx) hcs hag h3

/-- **Written and read again, a tree is the same**. -/
theorem names_round_trip (D : Str → Prop) (doc : Maps) (n : Node) (raw : Raw) (hdoc : doc.Ok D) (hn : n.Ok D)
    (h : writeRoot doc n = .ok raw) : ∃ n', read [] raw = .ok n' ∧ n'.tree = n.tree := by
  obtain ⟨h1, h2⟩ := names_written D doc n raw hdoc hn h
  exact names_read raw n.tree h1 h2

/-! ## Writing succeeds -/

theorem write_attrs_succeed {D : Str → Prop} {outer : List Maps} (ho : ∀ x ∈ outer, x.Ok D) : ∀ (attrs : List (AttrName × Str)) (m : Maps),
    m.Ok D → (∀ e ∈ attrs, Local e.1.2 ∧ (e.1.1 = some noNS ∨ ∃ u, e.1.1 = some u ∧ u ≠ [] ∧ u ≠ noNS ∧ ¬ D u)) →
    ∃ r, writeAttrs outer m attrs = .ok r
  | [], m, _, _ => ⟨_, rfl⟩
  | ((ns, a), v) :: l, m, hm, ha => by
    have hhead := (ha _ List.mem_cons_self).2
    have htail := fun e he => ha e (List.mem_cons_of_mem ((ns, a), v) he)
    rw [writeAttrs]
    cases hg : getPrefix ns (m :: outer) with
    | some p =>
      obtain ⟨r, hr⟩ := write_attrs_succeed ho l m hm htail
      simp only [hr]
      exact ⟨_, rfl⟩
    | none =>
      obtain ⟨p, hp⟩ := new_prefix ((m :: outer).map Maps.toNS)
      simp only [hp]
      rcases hhead with rfl | ⟨u, rfl, hu, hun, hD⟩
      · cases hg
      · obtain ⟨hfresh, k, rfl⟩ := newPrefixFrom_some _ _ hp
        obtain ⟨c1, c2, c3, c4⟩ := numbered_clean k
        have hnone : PyXml.Names.get (numbered k) m.toNS = none := by
          unfold getNS at hfresh
          rw [if_neg c2, List.map_cons, search_cons hm] at hfresh
          cases hx : PyXml.Names.get (numbered k) m.toNS with
          | none => rfl
          | some v => rw [hx] at hfresh; cases hfresh
        have hk : makePrefix m u (numbered k) = .ok ⟨put (numbered k) u m.toNS, put u (numbered k) m.toPrefix⟩ := by
          unfold makePrefix
          rw [hnone]
          rfl
        obtain ⟨k1, _, _⟩ := make_ok (outer := outer) hm hu hun c1 c2 c3 (fun e => absurd e c4) hk
        obtain ⟨r, hr⟩ := write_attrs_succeed ho l _ k1 htail
        simp only [Option.getD_some, hk, bind, Except.bind, hr]
        exact ⟨_, rfl⟩

theorem empty_ok (D : Str → Prop) : Maps.empty.Ok D :=
  ⟨fun _ _ h => (nomatch h), List.nodup_nil, fun _ h => (nomatch h), fun _ h => (nomatch h)⟩

mutual
theorem write_succeeds {D : Str → Prop} : ∀ (n : Node) (outer : List Maps) (root : Bool), (∀ x ∈ outer, x.Ok D) → n.Ok D → n.Fresh →
    ∃ raw, write outer root n = .ok raw
  | .text s, _, _, _, _, _ => ⟨_, by rw [write]⟩
  | .elem ns name attrs m cs, outer, root, ho, hn, hf => by
    rw [Node.Ok] at hn
    rw [Node.Fresh] at hf
    obtain ⟨⟨u, rfl, hu, hun, hD⟩, hname, hattrs, hnodup, hm, hcs⟩ := hn
    obtain ⟨rfl, hfs⟩ := hf
    rw [write]
    have h1 : ∃ pm, elementPrefix outer Maps.empty (some u) = .ok pm := by
      cases u with
      | nil => exact absurd rfl hu
      | cons c u =>
        rw [elementPrefix]
        cases getPrefix (some (c :: u)) (Maps.empty :: outer) with
        | some p => exact ⟨_, rfl⟩
        | none => exact ⟨_, rfl⟩
    obtain ⟨⟨p, m1⟩, h1⟩ := h1
    obtain ⟨hm1, _⟩ := element_prefix ho hm hu hun hD h1
    obtain ⟨⟨as, m2⟩, h2⟩ := write_attrs_succeed ho attrs m1 hm1 hattrs
    obtain ⟨hm2, _⟩ := write_attrs ho attrs m1 as m2 hm1 hattrs h2
    obtain ⟨rs, h3⟩ := writeAll_succeeds cs (m2 :: outer) (fun x hx => by
      rcases List.mem_cons.1 hx with rfl | hx
      · exact hm2
      · exact ho x hx) hcs hfs
    simp only [bind, Except.bind, h1, h2, h3]
    exact ⟨_, rfl⟩

theorem writeAll_succeeds {D : Str → Prop} : ∀ (ns : List Node) (outer : List Maps), (∀ x ∈ outer, x.Ok D) → Node.AllOk D ns →
    Node.AllFresh ns → ∃ raws, writeAll outer ns = .ok raws
  | [], _, _, _, _ => ⟨_, by rw [writeAll]⟩
  | n :: ns, outer, ho, hn, hf => by
    rw [Node.AllOk] at hn
    rw [Node.AllFresh] at hf
    obtain ⟨r, h1⟩ := write_succeeds n outer false ho hn.1 hf.1
    obtain ⟨rs, h2⟩ := writeAll_succeeds ns outer ho hn.2 hf.2
    rw [writeAll]
    simp only [bind, Except.bind, h1, h2]
    exact ⟨_, rfl⟩
end

/-- **Trees made by programs can always be written**, and are read again as they were. -/
theorem made_trees_round_trip (D : Str → Prop) (doc : Maps) (n : Node) (hdoc : doc.Ok D) (hn : n.Ok D) (hf : n.Fresh) :
    ∃ raw n', writeRoot doc n = .ok raw ∧ Means Env.base raw n.tree ∧ read [] raw = .ok n' ∧ n'.tree = n.tree := by
  obtain ⟨raw, h⟩ := write_succeeds n [doc] true (fun x hx => by rw [List.mem_singleton.1 hx]; exact hdoc) hn hf
  obtain ⟨n', h1, h2⟩ := names_round_trip D doc n raw hdoc hn h
  exact ⟨raw, n', h, (names_written D doc n raw hdoc hn h).1, h1, h2⟩

end Verif.Props.Names
