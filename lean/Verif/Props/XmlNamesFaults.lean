import Verif.Props.XmlNamesWrite

/-!
# Where names with prefixes are not read or written as what they mean
-/

namespace Verif.Props.Names
open Verif Verif.PyXml.Names

/-- Texts of the examples. -/
def s (x : String) : Str := x.toList

/-! ## Examples of the theorems -/

/-- A tree made by a program: elements of two namespaces, an attribute of a third and one without. -/
def made : Node :=
  .elem (some (s "u")) (s "a") [((some noNS, s "x"), s "1"), ((some (s "w"), s "x"), s "2")] Maps.empty
    [.text (s "t"), .elem (some (s "v")) (s "b") [] Maps.empty [.elem (some (s "u")) (s "c") [((some (s "w"), s "y"), s "3")] Maps.empty []]]

/-- The namespaces of elements. -/
def madeD (u : Str) : Prop := u = s "u" ∨ u = s "v"

theorem made_ok : made.Ok madeD ∧ made.Fresh := by
  have he := empty_ok madeD
  have hl : ∀ a ∈ [s "a", s "b", s "c", s "x", s "y"], Local a := by unfold Local Free; decide +kernel
  have hw : ¬ madeD (s "w") := by unfold madeD; decide +kernel
  have hu : madeD (s "u") := .inl rfl
  have hv : madeD (s "v") := .inr rfl
  have n1 : s "u" ≠ [] ∧ s "u" ≠ noNS := by decide +kernel
  have n2 : s "v" ≠ [] ∧ s "v" ≠ noNS := by decide +kernel
  have n3 : s "w" ≠ [] ∧ s "w" ≠ noNS := by decide +kernel
  refine ⟨?_, ?_⟩
  · simp only [made, Node.Ok, Node.AllOk, List.forall_mem_cons]
    refine ⟨⟨_, rfl, n1.1, n1.2, hu⟩, hl _ (by simp), ⟨⟨hl _ (by simp), .inl trivial⟩, ⟨hl _ (by simp), .inr ⟨_, rfl, n3.1, n3.2, hw⟩⟩, by simp⟩,
      by decide +kernel, he, trivial, ⟨⟨_, rfl, n2.1, n2.2, hv⟩, hl _ (by simp), by simp, List.nodup_nil, he,
      ⟨⟨_, rfl, n1.1, n1.2, hu⟩, hl _ (by simp), ⟨⟨hl _ (by simp), .inr ⟨_, rfl, n3.1, n3.2, hw⟩⟩, by simp⟩, by decide +kernel, he, trivial⟩,
      trivial⟩, trivial⟩
  · simp only [made, Node.Fresh, Node.AllFresh, and_self]

/-- What is written for it: the third namespace gets a prefix, the inner default namespaces are declared. -/
theorem made_written : writeRoot Maps.empty made =
    .ok (.elem (s "a") [(s "xmlns:" ++ numbered 1, s "w"), (s "xmlns", s "u"), (s "x", s "1"), (numbered 1 ++ s ":x", s "2")]
      [.text (s "t"), .elem (s "b") [(s "xmlns", s "v")] [.elem (s "c") [(s "xmlns", s "u"), (numbered 1 ++ s ":y", s "3")] []]]) ∧ numbered 1 = s "ns1" :=
  ⟨rfl, by decide +kernel⟩

/-! ## Reading -/

theorem isDecl_default : IsDecl (s "xmlns") := ⟨[], rfl⟩
theorem isDecl_prefix (p : Str) (h : p ≠ []) : IsDecl (s "xmlns:" ++ p) := ⟨p, by unfold declName; rw [if_neg h]; rfl⟩
theorem not_decl {a : Str} (h : Free a) : ¬ IsDecl a := fun hd => not_free_of_decl hd h

/-- `<a xmlns="u"><b xmlns=""><c/></b></a>` -/
def removed : Raw := .elem (s "a") [(s "xmlns", s "u")] [.elem (s "b") [(s "xmlns", [])] [.elem (s "c") [] []]]

/-- What it means: the inner elements have no namespace. -/
def removedTree : Tree := .elem (some (s "u")) (s "a") [] [.elem none (s "b") [] [.elem none (s "c") [] []]]

theorem removed_means : Means Env.base removed removedTree :=
  .elem (.plain (by decide +kernel)) (.decl isDecl_default .nil) (by decide +kernel) List.nodup_nil
    (.cons (.elem (.plain (by decide +kernel)) (.decl isDecl_default .nil) (by decide +kernel) List.nodup_nil
      (.cons (.elem (.plain (by decide +kernel)) .nil List.nodup_nil List.nodup_nil .nil) .nil)) .nil)

/-- **A default namespace cannot be removed (refuted)**: the element itself gets the empty text as its namespace, and those inside it get
the namespace that was removed. -/
theorem removed_default_refuted : ∃ raw t, Means Env.base raw t ∧ ∀ n, read [] raw = .ok n →
    n.tree = .elem (some (s "u")) (s "a") [] [.elem (some []) (s "b") [] [.elem (some (s "u")) (s "c") [] []]] ∧ n.tree ≠ t := by
  refine ⟨removed, removedTree, removed_means, ?_⟩
  intro n h
  have hr : read [] removed = .ok (.elem (some (s "u")) (s "a") [] ⟨[([], s "u")], [(s "u", [])]⟩
    [.elem (some []) (s "b") [] ⟨[([], [])], [([], [])]⟩ [.elem (some (s "u")) (s "c") [] Maps.empty []]]) := rfl
  rw [hr] at h
  cases h
  refine ⟨rfl, ?_⟩
  intro h
  simp [Node.tree, Node.trees, removedTree] at h

/-- **Undeclared prefixes are accepted (refuted)**: every such tag is read as an element without a namespace, although it has no meaning. -/
theorem undeclared_prefix_refuted (p l : Str) (hx : p ≠ "xml".toList) (hc : ':' ∉ p) (hl : ':' ∉ l)
    (hf : p ≠ "xmlns".toList) :
    (∀ t, ¬ Means Env.base (.elem (p ++ ':' :: l) [] []) t) ∧
      ∃ n, read [] (.elem (p ++ ':' :: l) [] []) = .ok n ∧ n.tree = .elem none l [] [] := by
  refine ⟨?_, ?_⟩
  · intro t h
    cases h with
    | @elem _ _ _ _ ns name as ts h1 _ _ _ _ =>
      generalize hq : p ++ ':' :: l = q at h1
      cases h1 with
      | plain hc' => exact hc' (by rw [← hq]; simp)
      | @prefixed p' l' u k1 k2 k3 k4 =>
        have := congrArg (Py.split ':') hq
        rw [split_prefixed hc hl, split_prefixed k2 k3] at this
        simp only [List.cons.injEq, and_true] at this
        rw [← this.1] at k4
        unfold Env.extend Env.base value at k4
        simp only [if_neg hx] at k4
        cases k4
  · refine ⟨.elem none l [] Maps.empty [], ?_, rfl⟩
    have he : expand (declarations []) [] (p ++ ':' :: l) true = .ok (none, l) := by
      unfold expand
      rw [split_prefixed hc hl]
      simp only [if_neg hx, if_neg hf]
      unfold getNS
      rw [if_neg hx]
      rfl
    rw [PyXml.Names.read]
    simp only [expandAttrs, bind, Except.bind, he, readAll]
    rfl

/-- `<a xmlns:p="u" xmlns:q="u" p:x="1" q:x="2"/>` -/
def twice : Raw := .elem (s "a") [(s "xmlns:p", s "u"), (s "xmlns:q", s "u"), (s "p:x", s "1"), (s "q:x", s "2")] []

/-- **Two attributes with one name are accepted (refuted)**: such a tag has no meaning, and one of the values is lost. -/
theorem same_attribute_refuted : (∀ t, ¬ Means Env.base twice t) ∧
    ∃ n, read [] twice = .ok n ∧ n.tree = .elem none (s "a") [((some (s "u"), s "x"), s "1")] [] := by
  refine ⟨?_, _, rfl, rfl⟩
  intro t h
  have hd1 : IsDecl (s "xmlns:p") := isDecl_prefix (s "p") (by decide +kernel)
  have hd2 : IsDecl (s "xmlns:q") := isDecl_prefix (s "q") (by decide +kernel)
  have hpx : ¬ IsDecl (s "p:x") := not_decl (by unfold Free; decide +kernel)
  have hqx : ¬ IsDecl (s "q:x") := not_decl (by unfold Free; decide +kernel)
  cases h with
  | @elem _ _ _ _ ns name as ts _ h2 _ h4 _ =>
    generalize henv : Env.extend Env.base _ = env at h2
    have h1 : AttrOf env (s "p:x") (some (s "u"), s "x") :=
      .prefixed (p := s "p") (l := s "x") (by decide +kernel) (by decide +kernel) (by decide +kernel) (by rw [← henv]; rfl)
    have h1' : AttrOf env (s "q:x") (some (s "u"), s "x") :=
      .prefixed (p := s "q") (l := s "x") (by decide +kernel) (by decide +kernel) (by decide +kernel) (by rw [← henv]; rfl)
    cases h2 with
    | attr hn _ _ => exact hn hd1
    | decl _ h2 =>
      cases h2 with
      | attr hn _ _ => exact hn hd2
      | decl _ h2 =>
        cases h2 with
        | decl hd _ => exact hpx hd
        | attr _ ha h2 =>
          cases h2 with
          | decl hd _ => exact hqx hd
          | attr _ hb h2 =>
            cases h2
            rw [attrOf_unique ha h1, attrOf_unique hb h1'] at h4
            simp at h4

/-- **Attributes whose names begin with `xmlns` are lost (refuted)**: every one that is not a declaration. -/
theorem reserved_attribute_refuted (c : Char) (a v : Str) (hc : c ≠ ':') (ha : ':' ∉ a) :
    Means Env.base (.elem (s "a") [(s "xmlns" ++ c :: a, v)] []) (.elem none (s "a") [((none, s "xmlns" ++ c :: a), v)] []) ∧
      ∃ n, read [] (.elem (s "a") [(s "xmlns" ++ c :: a, v)] []) = .ok n ∧ n.tree = .elem none (s "a") [] [] := by
  have hnd : ¬ IsDecl (s "xmlns" ++ c :: a) := by
    rintro ⟨p, hp⟩
    unfold declName at hp
    by_cases h : p = []
    · rw [if_pos h] at hp
      have := congrArg List.length hp
      simp [s] at this
    · rw [if_neg h] at hp
      have := congrArg (fun l => l[5]?) hp
      simp [s] at this
      exact hc this
  refine ⟨?_, ?_⟩
  · have hext : ∀ p, value (declName p) [(s "xmlns" ++ c :: a, v)] = none := by
      intro p
      rw [value, if_neg (fun e => hnd ⟨p, e⟩)]
      rfl
    have : (Env.base.extend [(s "xmlns" ++ c :: a, v)]) [] = none := by
      unfold Env.extend
      rw [if_neg (by decide), hext]
      rfl
    refine .elem ?_ (.attr hnd (.plain ?_) .nil) (by simp) (by simp) .nil
    · rw [← this]
      exact .plain (by decide +kernel)
    · intro h
      rcases List.mem_append.1 h with h | h
      · exact absurd h (by decide +kernel)
      · rcases List.mem_cons.1 h with h | h
        · exact hc h.symm
        · exact ha h
  · refine ⟨.elem none (s "a") [] Maps.empty [], ?_, rfl⟩
    have hd : declarations [(s "xmlns" ++ c :: a, v)] = [] := by
      rw [declarations, if_pos (by simp [s]), if_neg (by simp [s]), if_neg (by simp [s, hc])]
      rfl
    have he : expandAttrs [] [] [(s "xmlns" ++ c :: a, v)] = .ok [] := by
      rw [expandAttrs, if_pos (by simp [s])]
      rfl
    rw [PyXml.Names.read, hd]
    simp only [he, bind, Except.bind]
    rfl

/-! ## Writing -/

/-- **Attributes in the namespace of their element lose it (refuted)**: the empty prefix is used for them. -/
theorem attribute_namespace_refuted : ∃ n raw, n.Fresh ∧ writeRoot Maps.empty n = .ok raw ∧ ¬ Means Env.base raw n.tree ∧
    ∃ n', read [] raw = .ok n' ∧ n'.tree = .elem (some (s "u")) (s "a") [((none, s "x"), s "1")] [] ∧ n'.tree ≠ n.tree := by
  let n : Node := .elem (some (s "u")) (s "a") [((some (s "u"), s "x"), s "1")] Maps.empty []
  let raw : Raw := .elem (s "a") [(s "xmlns", s "u"), (s "x", s "1")] []
  have hne : ∀ n', read [] raw = .ok n' → n'.tree = .elem (some (s "u")) (s "a") [((none, s "x"), s "1")] [] ∧ n'.tree ≠ n.tree := by
    intro n' h
    have hr : read [] raw = .ok (.elem (some (s "u")) (s "a") [((some noNS, s "x"), s "1")] ⟨[([], s "u")], [(s "u", [])]⟩ []) := rfl
    rw [hr] at h
    cases h
    refine ⟨rfl, ?_⟩
    intro h
    simp only [n, Node.tree, Node.trees, attrTree, List.map_cons, List.map_nil, Tree.elem.injEq, List.cons.injEq, Prod.mk.injEq] at h
    simp [noNS, s] at h
  refine ⟨n, raw, by simp [n, Node.Fresh, Node.AllFresh], rfl, ?_, ?_⟩
  · intro h
    have hp : raw.Plain := by
      simp only [raw, Raw.Plain, Raw.AllPlain, List.forall_mem_cons]
      refine ⟨by unfold Free; decide +kernel, ⟨⟨fun _ => by decide +kernel, fun h => absurd isDecl_default h⟩,
        ⟨fun _ => by decide +kernel, fun _ => by unfold Free; decide +kernel⟩, by simp⟩, trivial⟩
    obtain ⟨n', h1, h2⟩ := names_read raw n.tree h hp
    exact (hne n' h1).2 h2
  · exact ⟨_, rfl, hne _ rfl⟩

/-- **Elements without a namespace get one (refuted)**: inside an element with a namespace. -/
theorem no_namespace_refuted : ∃ n raw, n.Fresh ∧ writeRoot Maps.empty n = .ok raw ∧ ¬ Means Env.base raw n.tree ∧
    n.tree = .elem (some (s "u")) (s "a") [] [.elem none (s "b") [] []] ∧
    ∃ n', read [] raw = .ok n' ∧ n'.tree = .elem (some (s "u")) (s "a") [] [.elem (some (s "u")) (s "b") [] []] := by
  let n : Node := .elem (some (s "u")) (s "a") [] Maps.empty [.elem none (s "b") [] Maps.empty []]
  let raw : Raw := .elem (s "a") [(s "xmlns", s "u")] [.elem (s "b") [] []]
  refine ⟨n, raw, by simp [n, Node.Fresh, Node.AllFresh], rfl, ?_, rfl, _, rfl, rfl⟩
  intro h
  have hp : raw.Plain := by
    simp only [raw, Raw.Plain, Raw.AllPlain, List.forall_mem_cons]
    exact ⟨by unfold Free; decide +kernel, ⟨⟨fun _ => by decide +kernel, fun h => absurd isDecl_default h⟩, by simp⟩,
      ⟨by unfold Free; decide +kernel, by simp, trivial⟩, trivial⟩
  obtain ⟨n', h1, h2⟩ := names_read raw n.tree h hp
  have hr : read [] raw = .ok (.elem (some (s "u")) (s "a") [] ⟨[([], s "u")], [(s "u", [])]⟩ [.elem (some (s "u")) (s "b") [] Maps.empty []]) := rfl
  rw [hr] at h1
  cases h1
  simp [n, Node.tree, Node.trees] at h2

/-- `<a xmlns:p="u" xmlns:q="u"><p:b xmlns:q="w" xmlns="z"/><q:b xmlns:p="w" xmlns="z"/></a>` -/
def shadowed : Raw := .elem (s "a") [(s "xmlns:p", s "u"), (s "xmlns:q", s "u")]
  [.elem (s "p:b") [(s "xmlns:q", s "w"), (s "xmlns", s "z")] [], .elem (s "q:b") [(s "xmlns:p", s "w"), (s "xmlns", s "z")] []]

/-- What it means. -/
def shadowedTree : Tree := .elem none (s "a") [] [.elem (some (s "u")) (s "b") [] [], .elem (some (s "u")) (s "b") [] []]

/-- **Documents that were read cannot always be written (refuted)**: of two prefixes for a namespace only one is remembered; where that
one is declared again, and the default namespace too, `ValueError` is raised.  It is so whichever of the two is remembered. -/
theorem read_then_write_refuted : ∃ raw t n, Means Env.base raw t ∧ raw.Plain ∧ read [] raw = .ok n ∧ n.tree = t ∧
    writeRoot Maps.empty n = .error .valueError := by
  have d := isDecl_default
  have dp : IsDecl (s "xmlns:p") := isDecl_prefix (s "p") (by decide +kernel)
  have dq : IsDecl (s "xmlns:q") := isDecl_prefix (s "q") (by decide +kernel)
  refine ⟨shadowed, shadowedTree, _, ?_, ?_, rfl, rfl, rfl⟩
  · refine .elem (.plain (by decide +kernel)) (.decl dp (.decl dq .nil)) (by decide +kernel) List.nodup_nil ?_
    refine .cons (.elem ?_ (.decl dq (.decl d .nil)) (by decide +kernel) List.nodup_nil .nil)
      (.cons (.elem ?_ (.decl dp (.decl d .nil)) (by decide +kernel) List.nodup_nil .nil) .nil)
    · exact .prefixed (p := s "p") (l := s "b") (by decide +kernel) (by decide +kernel) (by decide +kernel) rfl
    · exact .prefixed (p := s "q") (l := s "b") (by decide +kernel) (by decide +kernel) (by decide +kernel) rfl
  · simp only [shadowed, Raw.Plain, Raw.AllPlain, List.forall_mem_cons]
    refine ⟨by unfold Free; decide +kernel, ⟨⟨fun _ => by decide +kernel, fun h => absurd dp h⟩, ⟨fun _ => by decide +kernel, fun h => absurd dq h⟩, by simp⟩,
      ⟨by unfold Free; decide +kernel, ⟨⟨fun _ => by decide +kernel, fun h => absurd dq h⟩, ⟨fun _ => by decide +kernel, fun h => absurd d h⟩, by simp⟩, trivial⟩,
      ⟨by unfold Free; decide +kernel, ⟨⟨fun _ => by decide +kernel, fun h => absurd dp h⟩, ⟨fun _ => by decide +kernel, fun h => absurd d h⟩, by simp⟩, trivial⟩,
      trivial⟩

end Verif.Props.Names
