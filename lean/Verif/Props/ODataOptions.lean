import Verif.Lemmas.ODataOptions
import Verif.Props.ODataExpr

/-! # C152–C154: `$expand`, `$select` and `$orderby` -/

namespace Verif.Props

open Verif Verif.OData Verif.Spec.OData

/-! ## C152: reading `$expand` and `$select` -/

/-- **C152**: a list of paths is read as the nested dictionaries of these paths. -/
theorem expand_reads {T : Tables} {t : Str} {ps : List (List Str)} (h : ExpandList T t ps) :
    ∃ f, parseExpand T t = .ok f ∧ Lists f ps := by
  obtain ⟨h1, h2, rfl⟩ := h
  refine ⟨_, expandLoop_reads h1 h2 ?_, fold_nil ps⟩
  have hne : ∀ x ∈ ps.map (Py.join '/'), x ≠ [] := by
    intro x hx
    obtain ⟨p, hp, rfl⟩ := List.mem_map.1 hx
    have := join_length (sep := '/') (fun n hn => ident_ne ((h2 p hp).2 n hn))
    have := List.length_pos_iff.2 (h2 p hp).1
    intro h
    have := congrArg List.length h
    simp only [List.length_nil] at this
    omega
  have := join_length (sep := ',') hne
  rw [List.length_map] at this
  omega

/-- **C152**: no other text is accepted, and every other text raises `ValueError`. -/
theorem expand_only (T : Tables) (t : Str) : (∃ ps, ExpandList T t ps) ∨ parseExpand T t = .error .valueError := by
  cases h : parseExpand T t with
  | ok f => exact Or.inl (expandLoop_sound h)
  | error e => exact Or.inr (by rw [expandLoop_error (Nat.lt_succ_self _) h])

/-- **C152**: a list of paths with stars and white space is read as the nested dictionaries of these paths. -/
theorem select_reads {T : Tables} {t : Str} {ps : List (List Str)} (h : SelectList T t ps) :
    ∃ f, parseSelect T t = .ok f ∧ Lists f ps :=
  ⟨_, selectLoop_reads h (selectList_length h), fold_nil ps⟩

/-- **C152**: no other text is accepted, and every other text raises `ValueError`. -/
theorem select_only (T : Tables) (t : Str) : (∃ ps, SelectList T t ps) ∨ parseSelect T t = .error .valueError := by
  cases h : parseSelect T t with
  | ok f => exact Or.inl (selectLoop_sound h)
  | error e => exact Or.inr (by rw [selectLoop_error (Nat.lt_succ_self _) h])

/-- **C152**: the order of the paths, repeated paths and beginnings of other paths make no difference. -/
theorem options_redundant {T : Tables} {t u : Str} {ps qs : List (List Str)} (ht : SelectList T t ps) (hu : SelectList T u qs)
    (h : ∀ r, r ≠ [] → ((∃ p ∈ ps, r <+: p) ↔ ∃ q ∈ qs, r <+: q)) : ∃ f g, parseSelect T t = .ok f ∧ parseSelect T u = .ok g ∧
    ∀ r, Has f r ↔ Has g r := by
  obtain ⟨f, h1, h2⟩ := select_reads ht
  obtain ⟨g, h3, h4⟩ := select_reads hu
  refine ⟨f, g, h1, h3, fun r => ?_⟩
  rw [h2.2, h4.2]
  by_cases hr : r = []
  · simp [hr]
  · simp only [hr, false_or]
    exact h r hr

theorem ident_upper {T : Tables} {c : Char} (hc : Py.isLetter c = true) : Ident T [c] :=
  letters_ident (by simp) (by simpa using hc)

theorem expand_example : ExpandList plainTables "A/B,C,A".toList [[['A'], ['B']], [['C']], [['A']]] ∧
    parseExpand plainTables "A/B,C,A".toList = .ok (.cons ['A'] (.cons ['B'] .nil .nil) (.cons ['C'] .nil .nil)) ∧
    parseExpand plainTables "A/*".toList = .error .valueError ∧ parseExpand plainTables "".toList = .error .valueError := by
  refine ⟨⟨by simp, ?_, by decide +kernel⟩, by decide +kernel, by decide +kernel, by decide +kernel⟩
  intro p hp
  simp only [List.mem_cons, List.not_mem_nil, or_false] at hp
  rcases hp with rfl | rfl | rfl <;> refine ⟨by simp, ?_⟩ <;> simp [ident_upper (show Py.isLetter 'A' = true by decide),
    ident_upper (show Py.isLetter 'B' = true by decide), ident_upper (show Py.isLetter 'C' = true by decide)]

theorem select_example : SelectList plainTables " A/*\t, C".toList [[['A'], ['*']], [['C']]] ∧
    parseSelect plainTables " A/*\t, C".toList = .ok (.cons ['A'] (.cons ['*'] .nil .nil) (.cons ['C'] .nil .nil)) ∧
    parseSelect plainTables "*/A".toList = .error .valueError := by
  refine ⟨?_, by decide +kernel, by decide +kernel⟩
  have hb : ∀ c, c = ' ' ∨ c = '\t' → Blank [c] := by
    intro c hc d hd
    simp only [List.mem_singleton] at hd
    exact hd ▸ hc
  exact .more (t := " A/*".toList) (w := ['\t']) (u := " C".toList)
    (.more (w := [' ']) (n := ['A']) (u := ['*']) (hb _ (Or.inl rfl)) (ident_upper (by decide)) (.star (w := []) nil_blank))
    (hb _ (Or.inr rfl))
    (.last (t := " C".toList) (w := []) (.name (w := [' ']) (n := ['C']) (hb _ (Or.inl rfl)) (ident_upper (by decide))) nil_blank)

/-! ## C153: writing `$expand` and `$select` -/

/-- **C153**: what is written for `$expand` is read as the same paths. -/
theorem expand_written {T : Tables} {f : Forest} (h0 : f ≠ .nil) (hn : ExpandNames T f) :
    ∃ g, parseExpand T (formatExpand f) = .ok g ∧ Dictionary g ∧ ∀ q, Has g q ↔ Has f q := by
  obtain ⟨ps, h1, h2⟩ := format_paths f
  have hp : f.paths ≠ [] := by
    cases f with
    | nil => exact absurd rfl h0
    | cons n s r => exact paths_nonempty
  have hl : ExpandList T (formatExpand f) ps := by
    refine ⟨?_, ?_, h2⟩
    · rintro rfl
      exact hp (List.nil_perm.1 h1)
    · intro p hp
      have hp := h1.mem_iff.1 hp
      exact ⟨paths_ne hp, paths_expand hn p hp⟩
  obtain ⟨g, h3, h4⟩ := expand_reads hl
  exact ⟨g, h3, h4.1, fun q => by rw [h4.2, perm_lists h1]⟩

/-- **C153**: what is written for `$select` is read as the same paths. -/
theorem select_written {T : Tables} {f : Forest} (h0 : f ≠ .nil) (hn : SelectNames T f) :
    ∃ g, parseSelect T (formatExpand f) = .ok g ∧ Dictionary g ∧ ∀ q, Has g q ↔ Has f q := by
  obtain ⟨ps, h1, h2⟩ := format_paths f
  have hp : f.paths ≠ [] := by
    cases f with
    | nil => exact absurd rfl h0
    | cons n s r => exact paths_nonempty
  have hl : SelectList T (formatExpand f) ps := by
    rw [h2]
    refine list_select ?_ (fun p hp => paths_select hn p (h1.mem_iff.1 hp))
    rintro rfl
    exact hp (List.nil_perm.1 h1)
  obtain ⟨g, h3, h4⟩ := select_reads hl
  exact ⟨g, h3, h4.1, fun q => by rw [h4.2, perm_lists h1]⟩

/-- **C153**: two dictionaries with the same paths, in whatever order their names are kept, are written alike; and if their
names can be read, dictionaries that are written alike have the same paths. -/
theorem options_canonical {T : Tables} {f g : Forest} (hf : Dictionary f) (hg : Dictionary g) :
    ((∀ q, Has f q ↔ Has g q) → formatExpand f = formatExpand g) ∧
      (f ≠ .nil → g ≠ .nil → SelectNames T f → SelectNames T g → formatExpand f = formatExpand g → ∀ q, Has f q ↔ Has g q) := by
  refine ⟨format_same hf hg, fun h1 h2 h3 h4 h q => ?_⟩
  obtain ⟨f', h5, _, h6⟩ := select_written h1 h3
  obtain ⟨g', h7, _, h8⟩ := select_written h2 h4
  rw [h, h7] at h5
  injection h5 with h5
  rw [← h6, ← h8, h5]

/-- Dictionaries in different orders. -/
theorem written_example : formatExpand (.cons ['C'] .nil (.cons ['A'] (.cons ['*'] .nil .nil) .nil)) = "A/*,C".toList ∧
    formatExpand (.cons ['A'] (.cons ['*'] .nil .nil) (.cons ['C'] .nil .nil)) = "A/*,C".toList ∧
    SelectNames plainTables (.cons ['C'] .nil (.cons ['A'] (.cons ['*'] .nil .nil) .nil)) ∧
    Dictionary (.cons ['C'] .nil (.cons ['A'] (.cons ['*'] .nil .nil) .nil)) ∧
    formatExpand .nil = [] ∧ parseSelect plainTables [] = .error .valueError := by
  refine ⟨by decide +kernel, by decide +kernel, ?_, ?_, by decide +kernel, by decide +kernel⟩
  · exact ⟨Or.inl ⟨ident_upper (by decide), trivial⟩, Or.inl ⟨ident_upper (by decide), Or.inr ⟨rfl, rfl⟩, trivial⟩, trivial⟩
  · simp [Dictionary, names]

/-! ## C154: `$orderby` -/

/-- **C154**: rules are read with their expressions and directions. -/
theorem order_reads_partial {T : Tables} {t : Str} {rs : List (Expr × Bool)} (h : OrderList T t rs) : parseOrder T t = .ok rs :=
  orderLoop_reads h (orderList_length h)

/-- **C154**: what is written for a list of rules is read as these rules. -/
theorem order_written_partial {T : Tables} {fin : Bool → Nat → Int → Str} {l : List (Expr × Bool)} (h0 : l ≠ [])
    (h : ∀ r ∈ l, Printable T fin r.1) : ∃ t, orderText fin l = .ok t ∧ parseOrder T t = .ok l := by
  obtain ⟨t, h1, h2⟩ := order_text h0 h
  exact ⟨t, h1, order_reads_partial h2⟩

/-- **C154**: reading ends with rules, `ValueError` or `TypeError`. -/
theorem order_errors (T : Tables) (s : Str) : (∃ l, parseOrder T s = .ok l) ∨
    parseOrder T s = .error .valueError ∨ parseOrder T s = .error .typeError := by
  have h := orderLoop_plain (T := T) (Nat.lt_succ_self s.length)
  cases hp : parseOrder T s with
  | ok l => exact Or.inl ⟨l, rfl⟩
  | error e =>
    rcases h e hp with rfl | rfl
    · exact Or.inr (Or.inl rfl)
    · exact Or.inr (Or.inr rfl)

/-- Rules in both directions. -/
theorem order_example : OrderList plainTables "a, a DESC".toList [(.prop ['a'], true), (.prop ['a'], false)] ∧
    parseOrder plainTables "a, a DESC".toList = .ok [(.prop ['a'], true), (.prop ['a'], false)] ∧
    (∀ fin, Printable plainTables fin (.prop ['a'])) := by
  have hb : Blank [' '] := by intro c hc; simp only [List.mem_singleton] at hc; exact Or.inl hc
  have ha : Denotes plainTables 2 ['a'] (.prop ['a']) := Denotes.down (.prop property_a) (by decide)
  refine ⟨?_, by decide +kernel, fun fin => .prop property_a⟩
  exact .more (t := ['a']) (u := " a DESC".toList) (.plain (w := []) (w' := []) ha nil_blank nil_blank)
    (.last (.desc (w := [' ']) (t := ['a']) (w' := [' ']) (d := "DESC".toList) (w'' := []) ha hb hb (by simp) (by decide +kernel)
      nil_blank))

/-- That a word is separated from the expression before it is not required: `1asc` is read, though no rule is written so;
and a missing expression is noticed, as `ValueError`. -/
theorem order_only_refuted : parseOrder plainTables "1asc".toList = .ok [(.lit (.int32 1), true)] ∧
    parseOrder plainTables "a descending".toList = .error .valueError ∧
    parseOrder plainTables "desc".toList = .ok [(.prop "desc".toList, true)] ∧
    parseOrder plainTables "a,".toList = .error .valueError := by
  refine ⟨by decide +kernel, by decide +kernel, by decide +kernel, by decide +kernel⟩

end Verif.Props
