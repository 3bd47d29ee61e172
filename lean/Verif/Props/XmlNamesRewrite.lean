import Verif.Props.XmlNamesFaults

/-!
# Writing what was read
-/

namespace Verif.Props.Names
open Verif Verif.PyXml.Names

/-! ## The dictionaries of an element that was read -/

theorem get_of_mem {α : Type} {k : Str} {v : α} : ∀ {l : List (Str × α)}, (l.map Prod.fst).Nodup → (k, v) ∈ l →
    PyXml.Names.get k l = some v
  | [], _, h => by cases h
  | (x, w) :: l, hn, h => by
    rw [List.map_cons, List.nodup_cons] at hn
    rw [get_cons]
    rcases List.mem_cons.1 h with h | h
    · cases h
      rw [if_pos rfl]
    · rw [if_neg, get_of_mem hn.2 h]
      rintro rfl
      exact hn.1 (List.mem_map.2 ⟨_, h, rfl⟩)

theorem mem_declarations {p u : Str} : ∀ {l : List (Str × Str)}, (∀ e ∈ l, ¬ IsDecl e.1 → Free e.1) →
    ((p, u) ∈ declarations l ↔ Declares l p u)
  | [], _ => ⟨fun h => (nomatch h), fun h => (nomatch h)⟩
  | (a, v) :: l, h => by
    have ih := mem_declarations (p := p) (u := u) (l := l) (fun e he => h e (List.mem_cons_of_mem _ he))
    unfold Declares at ih ⊢
    by_cases hd : IsDecl a
    · obtain ⟨q, rfl⟩ := hd
      rw [declarations_cons_decl, List.mem_cons, List.mem_cons, ih]
      constructor
      · rintro (h | h)
        · cases h; exact .inl rfl
        · exact .inr h
      · rintro (h | h)
        · have := Prod.mk.inj h
          exact .inl (Prod.ext (declName_inj this.1) this.2)
        · exact .inr h
    · rw [declarations_cons_free (h (a, v) List.mem_cons_self hd), ih, List.mem_cons]
      constructor
      · exact .inr
      · rintro (h | h)
        · exact absurd ⟨p, (Prod.mk.inj h).1.symm⟩ hd
        · exact h

theorem declarations_keys : ∀ {l : List (Str × Str)}, (∀ e ∈ l, ¬ IsDecl e.1 → Free e.1) → (l.map Prod.fst).Nodup →
    ((declarations l).map Prod.fst).Nodup
  | [], _, _ => List.nodup_nil
  | (a, v) :: l, h, hn => by
    have hl := fun e he => h e (List.mem_cons_of_mem (a, v) he)
    rw [List.map_cons, List.nodup_cons] at hn
    have ih := declarations_keys hl hn.2
    by_cases hd : IsDecl a
    · obtain ⟨q, rfl⟩ := hd
      rw [declarations_cons_decl, List.map_cons, List.nodup_cons]
      refine ⟨?_, ih⟩
      intro hm
      obtain ⟨e, he, hq⟩ := List.mem_map.1 hm
      have : Declares l e.1 e.2 := (mem_declarations hl).1 he
      rw [hq] at this
      exact hn.1 (List.mem_map.2 ⟨_, this, rfl⟩)
    · rw [declarations_cons_free (h (a, v) List.mem_cons_self hd)]
      exact ih

theorem get_inverse {u p : Str} : ∀ {l : List (Str × Str)}, PyXml.Names.get u (inverse l) = some p → (p, u) ∈ l
  | [], h => by cases h
  | (x, v) :: l, h => by
    have h : PyXml.Names.get u (put v x (inverse l)) = some p := h
    rw [get_put] at h
    by_cases hv : v = u
    · rw [if_pos hv] at h
      cases h
      rw [hv]
      exact List.mem_cons_self
    · rw [if_neg hv] at h
      exact List.mem_cons_of_mem _ (get_inverse h)

theorem inverse_some {u p : Str} : ∀ {l : List (Str × Str)}, (p, u) ∈ l → ∃ q, PyXml.Names.get u (inverse l) = some q
  | [], h => by cases h
  | (x, v) :: l, h => by
    show ∃ q, PyXml.Names.get u (put v x (inverse l)) = some q
    rw [get_put]
    by_cases hv : v = u
    · exact ⟨x, if_pos hv⟩
    · rw [if_neg hv]
      rcases List.mem_cons.1 h with h | h
      · exact absurd (Prod.mk.inj h).2.symm hv
      · exact inverse_some h

/-- The dictionaries of an element fit each other in both directions. -/
structure Full (m : Maps) : Prop where
  ok : m.Ok fun _ => True
  all : ∀ p u, (p, u) ∈ m.toNS → PyXml.Names.get u m.toPrefix = some p

theorem full_empty : Full Maps.empty := ⟨empty_ok _, fun _ _ h => (nomatch h)⟩

theorem full_read {attrs : List (Str × Str)} (hp : ∀ e ∈ attrs, (IsDecl e.1 → e.2 ≠ [] ∧ e.2 ≠ noNS) ∧ (¬ IsDecl e.1 → Free e.1))
    (hn : (attrs.map Prod.fst).Nodup) (hs : ∀ p u, Declares attrs p u → ':' ∉ p ∧ p ≠ "xml".toList ∧ Free p)
    (h1 : ∀ p q u, Declares attrs p u → Declares attrs q u → p = q) :
    Full ⟨declarations attrs, inverse (declarations attrs)⟩ := by
  have hf := fun e he => (hp e he).2
  have hk := declarations_keys hf hn
  refine ⟨⟨?_, hk, ?_, fun _ _ => trivial⟩, ?_⟩
  · intro u p h
    exact get_of_mem hk (get_inverse h)
  · intro e he
    have hd : Declares attrs e.1 e.2 := (mem_declarations hf).1 he
    obtain ⟨k1, k2, k3⟩ := hs _ _ hd
    exact ⟨k1, k2, k3, (hp _ hd).1 ⟨e.1, rfl⟩⟩
  · intro p u h
    obtain ⟨q, hq⟩ := inverse_some h
    have := h1 p q u ((mem_declarations hf).1 h) ((mem_declarations hf).1 (get_inverse hq))
    rw [this]
    exact hq

/-! ## A prefix is found for all that is bound -/

theorem search_complete {q u : Str} : ∀ (r inner : List Maps), (∀ m ∈ r, Full m) → (∀ m ∈ inner, PyXml.Names.get q m.toNS = none) →
    searchNS q (spaces r) = some u → ∃ p, searchPrefix u inner r = some p
  | [], _, _, _, h => by cases h
  | m :: r, inner, hr, hi, h => by
    have hm := hr m List.mem_cons_self
    rw [spaces, List.map_cons, search_cons hm.ok] at h
    rw [searchPrefix]
    cases hg : PyXml.Names.get q m.toNS with
    | some v =>
      rw [hg] at h
      cases h
      rw [hm.all q u (get_mem hg)]
      refine ⟨q, if_neg ?_⟩
      rw [List.any_eq_true]
      rintro ⟨x, hx, hsome⟩
      rw [hi x hx] at hsome
      cases hsome
    | none =>
      rw [hg] at h
      obtain ⟨p, hp⟩ := search_complete r (inner ++ [m]) (fun x hx => hr x (List.mem_cons_of_mem _ hx)) (fun x hx => by
        rcases List.mem_append.1 hx with hx | hx
        · exact hi x hx
        · rw [List.mem_singleton.1 hx]; exact hg) h
      cases PyXml.Names.get u m.toPrefix with
      | none => exact ⟨p, hp⟩
      | some x =>
        simp only
        by_cases hany : (inner.any fun y => (PyXml.Names.get x y.toNS).isSome) = true
        · rw [if_pos hany]; exact ⟨p, hp⟩
        · rw [if_neg hany]; exact ⟨x, rfl⟩

theorem prefix_complete {q u : Str} {scope : List Maps} (hs : ∀ m ∈ scope, Full m) (h : getNS q (spaces scope) = some u) :
    ∃ p, getPrefix (some u) scope = some p := by
  unfold getPrefix
  simp only
  by_cases hx : u = xmlNS
  · exact ⟨_, if_pos hx⟩
  · rw [if_neg hx]
    by_cases hn : u = noNS
    · exact ⟨_, if_pos hn⟩
    · rw [if_neg hn]
      unfold getNS at h
      by_cases hq : q = "xml".toList
      · rw [if_pos hq] at h
        exact absurd (Option.some.inj h).symm hx
      · rw [if_neg hq] at h
        exact search_complete scope [] hs (by simp) h

theorem bound_clean {q u : Str} {scope : List Maps} (hs : ∀ m ∈ scope, Full m) (h : getNS q (spaces scope) = some u) :
    u ≠ [] ∧ u ≠ noNS := by
  unfold getNS at h
  by_cases hq : q = "xml".toList
  · rw [if_pos hq] at h
    rw [← Option.some.inj h]
    decide +kernel
  · rw [if_neg hq] at h
    obtain ⟨l, hl, hm⟩ := List.mem_flatten.1 (searchNS_mem h)
    obtain ⟨m, hm', rfl⟩ := List.mem_map.1 hl
    exact ((hs m hm').ok.clean _ hm).2.2.2

theorem attrs_complete {outer : List Maps} {m : Maps} (hs : ∀ x ∈ m :: outer, Full x) : ∀ (attrs : List (AttrName × Str)),
    (∀ e ∈ attrs, e.1.1 = some noNS ∨ ∃ u q, e.1.1 = some u ∧ getNS q (spaces (m :: outer)) = some u) →
    ∃ as, writeAttrs outer m attrs = .ok (as, m)
  | [], _ => ⟨[], rfl⟩
  | ((ns, a), v) :: l, h => by
    obtain ⟨as, ih⟩ := attrs_complete hs l (fun e he => h e (List.mem_cons_of_mem _ he))
    have hp : ∃ p, getPrefix ns (m :: outer) = some p := by
      rcases h _ List.mem_cons_self with h | ⟨u, q, h, hq⟩
      · simp only at h
        rw [h]
        exact ⟨[], rfl⟩
      · simp only at h
        rw [h]
        exact prefix_complete hs hq
    obtain ⟨p, hp⟩ := hp
    rw [writeAttrs, hp]
    simp only [ih, bind, Except.bind]
    exact ⟨_, rfl⟩

theorem attrs_bound {env : Env} {l : List (Str × Str)} {r : List ((Option Str × Str) × Str)} (h : AttrsMean env l r) :
    ∀ e ∈ r, ':' ∉ e.1.2 ∧ ∀ u, e.1.1 = some u → ∃ q, env q = some u := by
  induction h with
  | nil => intro e he; cases he
  | decl _ _ ih => exact ih
  | @attr a v n l r hd hat _ ih =>
    intro e he
    rcases List.mem_cons.1 he with rfl | he
    · cases hat with
      | plain hc => exact ⟨hc, fun u h => by cases h⟩
      | @prefixed p l u _ _ hl hu => exact ⟨hl, fun w h => by cases h; exact ⟨p, hu⟩⟩
    · exact ih e he

/-! ## Documents -/

mutual
theorem rewrite_ok (D : Str → Prop) : ∀ (raw : Raw) (outer : List Maps) (scope : List (List (Str × Str))) (env : Env) (t : Tree) (root : Bool),
    (∀ m ∈ outer, Full m) → Agree scope env → Agree (spaces outer) env → NoTilde env → Means env raw t → raw.Plain → raw.Single →
    ∃ n raw', read scope raw = .ok n ∧ n.tree = t ∧ write outer root n = .ok raw' ∧ (raw.Defaults D → t.Apart D → n.Ok D)
  | .text s, _, _, _, _, _, _, _, _, _, h, _, _ => by
    cases h
    exact ⟨.text s, .text s, rfl, rfl, by rw [write], fun _ _ => trivial⟩
  | .elem q attrs cs, outer, scope, env, _, root, ho, ha, hb, ht, h, hpl, hsg => by
    rw [Raw.Plain] at hpl
    rw [Raw.Single] at hsg
    obtain ⟨hf, hp, hcs⟩ := hpl
    obtain ⟨hs1, hs2, hs3⟩ := hsg
    cases h with
    | @elem _ _ _ _ ns name as ts h1 h2 hnd h3 h4 =>
      have ha' := agree_extend ha attrs hp
      have hb' := agree_extend hb attrs hp
      have ht' := noTilde_extend ht attrs hp
      have hm := full_read hp hnd hs1 hs2
      have hs : ∀ x ∈ (⟨declarations attrs, inverse (declarations attrs)⟩ : Maps) :: outer, Full x := fun x hx => by
        rcases List.mem_cons.1 hx with rfl | hx
        · exact hm
        · exact ho x hx
      have hb'' : Agree (spaces ((⟨declarations attrs, inverse (declarations attrs)⟩ : Maps) :: outer)) (env.extend attrs) := hb'
      obtain ⟨r, hr, hrt, hrn, hrd⟩ := expandAttrs_mean ha' ht' hp h2 h3 hp
      obtain ⟨ns', rs, hk, hkt, hkw, hko⟩ := rewriteAll_ok D cs _ _ _ ts hs ha' hb'' ht' h4 hcs hs3
      have hbound := attrs_bound h2
      have hre : ∀ e ∈ r, e.1.1 = some noNS ∨ ∃ u q, e.1.1 = some u ∧
          getNS q (spaces ((⟨declarations attrs, inverse (declarations attrs)⟩ : Maps) :: outer)) = some u := by
        intro e he
        by_cases hx : e.1.1 = some noNS
        · exact .inl hx
        · right
          have hmem : (attrTree e.1, e.2) ∈ as := by rw [← hrt]; exact List.mem_map.2 ⟨e, he, rfl⟩
          have hbe := (hbound _ hmem).2
          simp only [attrTree, if_neg hx] at hbe
          cases hu : e.1.1 with
          | none => exact absurd hu (hrn e he)
          | some u =>
            obtain ⟨q, hq⟩ := hbe u hu
            exact ⟨u, q, rfl, by rw [hb'' q]; exact hq⟩
      obtain ⟨as', hw⟩ := attrs_complete hs r hre
      have hname : ':' ∉ name ∧ ∀ u, ns = some u → ∃ q, env.extend attrs q = some u := by
        cases h1 with
        | plain hc => exact ⟨hc, fun u h => ⟨[], h⟩⟩
        | @prefixed p l u _ _ hl hu => exact ⟨hl, fun w h => by cases h; exact ⟨p, hu⟩⟩
      have he : ∃ p, elementPrefix outer ⟨declarations attrs, inverse (declarations attrs)⟩ ns =
          .ok (p, ⟨declarations attrs, inverse (declarations attrs)⟩) := by
        cases ns with
        | none => exact ⟨[], rfl⟩
        | some u =>
          cases u with
          | nil => exact ⟨[], rfl⟩
          | cons c u =>
            obtain ⟨q, hq⟩ := hname.2 _ rfl
            obtain ⟨p, hp⟩ := prefix_complete hs (by rw [hb'' q]; exact hq)
            refine ⟨p, ?_⟩
            rw [elementPrefix, hp]
      obtain ⟨p, he⟩ := he
      refine ⟨.elem ns name r ⟨declarations attrs, inverse (declarations attrs)⟩ ns', ?_⟩
      simp only [write, he, hw, hkw, bind, Except.bind]
      refine ⟨_, ?_, ?_, rfl, ?_⟩
      · rw [PyXml.Names.read, hr]
        simp only [bind, Except.bind, expand_element ha' hp hf h1, hk]
      · rw [Node.tree, hrt, hkt]
      · intro hdef hap
        rw [Raw.Defaults] at hdef
        rw [Tree.Apart] at hap
        obtain ⟨hd1, hd2⟩ := hdef
        obtain ⟨⟨u, rfl, hu⟩, hfn, hat, hap⟩ := hap
        rw [Node.Ok]
        obtain ⟨q, hq⟩ := hname.2 u rfl
        have hc := bound_clean hs (show getNS q _ = some u by rw [hb'' q]; exact hq)
        refine ⟨⟨u, rfl, hc.1, hc.2, hu⟩, ⟨hname.1, hfn⟩, ?_, hrd, ?_, hko hd2 hap⟩
        · intro e he
          have hmem : (attrTree e.1, e.2) ∈ as := by rw [← hrt]; exact List.mem_map.2 ⟨e, he, rfl⟩
          have h2 : (attrTree e.1).2 = e.1.2 := by unfold attrTree; split <;> rfl
          refine ⟨⟨?_, ?_⟩, ?_⟩
          · rw [← h2]; exact (hbound _ hmem).1
          · have := (hat _ hmem).1
            simp only [h2] at this
            exact this
          · rcases hre e he with hx | ⟨w, q, hw, hq⟩
            · exact .inl hx
            · obtain ⟨c1, c2⟩ := bound_clean hs hq
              refine .inr ⟨w, hw, c1, c2, ?_⟩
              refine (hat _ hmem).2 w ?_
              simp only [attrTree, hw]
              rw [if_neg (fun e => c2 (Option.some.inj e)), hw]
        · exact ⟨hm.ok.fits, hm.ok.keys, hm.ok.clean, fun w hw => hd1 w ((mem_declarations (fun e he => (hp e he).2)).1 (get_mem hw))⟩

theorem rewriteAll_ok (D : Str → Prop) : ∀ (rs : List Raw) (outer : List Maps) (scope : List (List (Str × Str))) (env : Env) (ts : List Tree),
    (∀ m ∈ outer, Full m) → Agree scope env → Agree (spaces outer) env → NoTilde env → MeanAll env rs ts → Raw.AllPlain rs →
    Raw.AllSingle rs → ∃ ns rs', readAll scope rs = .ok ns ∧ Node.trees ns = ts ∧ writeAll outer ns = .ok rs' ∧
      (Raw.AllDefaults D rs → Tree.AllApart D ts → Node.AllOk D ns)
  | [], _, _, _, _, _, _, _, _, h, _, _ => by
    cases h
    exact ⟨[], [], rfl, rfl, by rw [writeAll], fun _ _ => trivial⟩
  | r :: rs, outer, scope, env, _, ho, ha, hb, ht, h, hpl, hsg => by
    rw [Raw.AllPlain] at hpl
    rw [Raw.AllSingle] at hsg
    cases h with
    | cons h1 h2 =>
      obtain ⟨n, r', k1, k2, k3, k4⟩ := rewrite_ok D r outer scope env _ false ho ha hb ht h1 hpl.1 hsg.1
      obtain ⟨ns, rs', l1, l2, l3, l4⟩ := rewriteAll_ok D rs outer scope env _ ho ha hb ht h2 hpl.2 hsg.2
      refine ⟨n :: ns, r' :: rs', ?_, by rw [Node.trees, k2, l2], ?_, ?_⟩
      · rw [readAll, k1]
        simp only [bind, Except.bind, l1]
      · rw [writeAll, k3]
        simp only [bind, Except.bind, l3]
      · intro hd hap
        rw [Raw.AllDefaults] at hd
        rw [Tree.AllApart] at hap
        exact ⟨k4 hd.1 hap.1, l4 hd.2 hap.2⟩
end

theorem agree_document : Agree (spaces [Maps.empty]) Env.base := fun _ => rfl

/-- **What was read can be written**, if no tag declares two prefixes for one namespace. -/
theorem read_then_write (raw : Raw) (t : Tree) (h : Means Env.base raw t) (hp : raw.Plain) (hs : raw.Single) :
    ∃ n raw', read [] raw = .ok n ∧ n.tree = t ∧ writeRoot Maps.empty n = .ok raw' := by
  obtain ⟨n, raw', h1, h2, h3, _⟩ := rewrite_ok (fun _ => True) raw [Maps.empty] [] Env.base t true
    (fun x hx => by rw [List.mem_singleton.1 hx]; exact full_empty) agree_base agree_document noTilde_base h hp hs
  exact ⟨n, raw', h1, h2, h3⟩

/-- **What is written for it means the same**, if namespaces of elements and those of attributes are kept apart. -/
theorem rewritten_means (D : Str → Prop) (raw : Raw) (t : Tree) (h : Means Env.base raw t) (hp : raw.Plain) (hs : raw.Single)
    (hd : raw.Defaults D) (hap : t.Apart D) :
    ∃ n raw', read [] raw = .ok n ∧ writeRoot Maps.empty n = .ok raw' ∧ Means Env.base raw' t := by
  obtain ⟨n, raw', h1, h2, h3, h4⟩ := rewrite_ok D raw [Maps.empty] [] Env.base t true
    (fun x hx => by rw [List.mem_singleton.1 hx]; exact full_empty) agree_base agree_document noTilde_base h hp hs
  refine ⟨n, raw', h1, h3, ?_⟩
  rw [← h2]
  exact (names_written D Maps.empty n raw' (empty_ok D) (h4 hd hap) h3).1

/-! ## An example -/

/-- `<a xmlns="u" xmlns:p="w" p:x="1"><b xmlns="v" xmlns:p="z" p:y="2"/></a>` -/
def hidden : Raw := .elem (s "a") [(s "xmlns", s "u"), (s "xmlns:p", s "w"), (s "p:x", s "1")]
  [.elem (s "b") [(s "xmlns", s "v"), (s "xmlns:p", s "z"), (s "p:y", s "2")] []]

/-- What it means. -/
def hiddenTree : Tree := .elem (some (s "u")) (s "a") [((some (s "w"), s "x"), s "1")]
  [.elem (some (s "v")) (s "b") [((some (s "z"), s "y"), s "2")] []]

theorem declares_two {a b n x y v p u : Str} (hn : Free n) (h : Declares [(declName a, x), (declName b, y), (n, v)] p u) :
    (p = a ∧ u = x) ∨ (p = b ∧ u = y) := by
  unfold Declares at h
  simp only [List.mem_cons, Prod.mk.injEq, List.not_mem_nil, or_false] at h
  rcases h with h | h | h
  · exact .inl ⟨declName_inj h.1, h.2⟩
  · exact .inr ⟨declName_inj h.1, h.2⟩
  · exact absurd (by rw [h.1]; exact hn) (declName_not_free p)

theorem hidden_sample : Means Env.base hidden hiddenTree ∧ hidden.Plain ∧ hidden.Single ∧ hidden.Defaults madeD ∧ hiddenTree.Apart madeD := by
  have d := isDecl_default
  have dp : IsDecl (s "xmlns:p") := isDecl_prefix (s "p") (by decide +kernel)
  have f1 : Free (s "p:x") := by unfold Free; decide +kernel
  have f2 : Free (s "p:y") := by unfold Free; decide +kernel
  refine ⟨?_, ?_, ?_, ?_, ?_⟩
  · refine .elem (.plain (by decide +kernel)) (.decl d (.decl dp (.attr (not_decl f1) ?_ .nil))) (by decide +kernel) (by simp) ?_
    · exact .prefixed (p := s "p") (l := s "x") (by decide +kernel) (by decide +kernel) (by decide +kernel) rfl
    · refine .cons (.elem (.plain (by decide +kernel)) (.decl d (.decl dp (.attr (not_decl f2) ?_ .nil))) (by decide +kernel) (by simp) .nil) .nil
      exact .prefixed (p := s "p") (l := s "y") (by decide +kernel) (by decide +kernel) (by decide +kernel) rfl
  · simp only [hidden, Raw.Plain, Raw.AllPlain, List.forall_mem_cons]
    exact ⟨by unfold Free; decide +kernel, ⟨⟨fun _ => by decide +kernel, fun h => absurd d h⟩, ⟨fun _ => by decide +kernel, fun h => absurd dp h⟩,
      ⟨fun h => absurd h (not_decl f1), fun _ => f1⟩, by simp⟩,
      ⟨by unfold Free; decide +kernel, ⟨⟨fun _ => by decide +kernel, fun h => absurd d h⟩, ⟨fun _ => by decide +kernel, fun h => absurd dp h⟩,
      ⟨fun h => absurd h (not_decl f2), fun _ => f2⟩, by simp⟩, trivial⟩, trivial⟩
  · have hc : ∀ p, p = [] ∨ p = s "p" → ':' ∉ p ∧ p ≠ "xml".toList ∧ Free p := by
      rintro p (rfl | rfl) <;> (unfold Free; decide +kernel)
    simp only [hidden, Raw.Single, Raw.AllSingle, and_true]
    refine ⟨?_, ?_, ?_, ?_⟩
    · intro p u h
      rcases declares_two (a := []) (b := s "p") f1 h with h | h
      · exact hc p (.inl h.1)
      · exact hc p (.inr h.1)
    · intro p q u h1 h2
      rcases declares_two (a := []) (b := s "p") f1 h1 with h1 | h1 <;> rcases declares_two (a := []) (b := s "p") f1 h2 with h2 | h2
      · rw [h1.1, h2.1]
      · exact absurd (h1.2.symm.trans h2.2) (by decide +kernel)
      · exact absurd (h1.2.symm.trans h2.2) (by decide +kernel)
      · rw [h1.1, h2.1]
    · intro p u h
      rcases declares_two (a := []) (b := s "p") f2 h with h | h
      · exact hc p (.inl h.1)
      · exact hc p (.inr h.1)
    · intro p q u h1 h2
      rcases declares_two (a := []) (b := s "p") f2 h1 with h1 | h1 <;> rcases declares_two (a := []) (b := s "p") f2 h2 with h2 | h2
      · rw [h1.1, h2.1]
      · exact absurd (h1.2.symm.trans h2.2) (by decide +kernel)
      · exact absurd (h1.2.symm.trans h2.2) (by decide +kernel)
      · rw [h1.1, h2.1]
  · simp only [hidden, Raw.Defaults, Raw.AllDefaults, and_true]
    refine ⟨?_, ?_⟩
    · intro u h
      rcases declares_two (a := []) (b := s "p") f1 h with h | h
      · exact .inl h.2
      · exact absurd h.1 (by decide +kernel)
    · intro u h
      rcases declares_two (a := []) (b := s "p") f2 h with h | h
      · exact .inr h.2
      · exact absurd h.1 (by decide +kernel)
  · have hw : ¬ madeD (s "w") := by unfold madeD; decide +kernel
    have hz : ¬ madeD (s "z") := by unfold madeD; decide +kernel
    simp only [hiddenTree, Tree.Apart, Tree.AllApart, List.forall_mem_cons, and_true]
    exact ⟨⟨_, rfl, .inl rfl⟩, by unfold Free; decide +kernel, ⟨⟨by unfold Free; decide +kernel, fun u h => by cases h; exact hw⟩, by simp⟩,
      ⟨_, rfl, .inr rfl⟩, by unfold Free; decide +kernel, ⟨by unfold Free; decide +kernel, fun u h => by cases h; exact hz⟩, by simp⟩

end Verif.Props.Names
