import Verif.Spec.Xml

/-! Lemmas about the reading of XML text: concatenation, and uniqueness of what is read. -/

set_option linter.unusedVariables false

namespace Verif.Spec

/-! ## Uniqueness -/

/-- Two ways of splitting a text after a run of characters of one class are the same. -/
theorem span_unique (P : Char → Prop) {s s' t t' : Str} (hs : ∀ c ∈ s, P c) (hs' : ∀ c ∈ s', P c)
    (ht : ∀ c ∈ t.head?, ¬ P c) (ht' : ∀ c ∈ t'.head?, ¬ P c) (h : s ++ t = s' ++ t') : s = s' ∧ t = t' := by
  induction s generalizing s' with
  | nil =>
    cases s' with
    | nil => exact ⟨rfl, h⟩
    | cons c s' =>
      exfalso
      simp only [List.nil_append] at h
      subst h
      exact ht c (by simp) (hs' c (by simp))
  | cons c s ih =>
    cases s' with
    | nil =>
      exfalso
      simp only [List.nil_append] at h
      subst h
      exact ht' c (by simp) (hs c (by simp))
    | cons d s' =>
      simp only [List.cons_append, List.cons.injEq] at h
      obtain ⟨e1, e2⟩ := ih (fun c hc => hs c (by simp [hc])) (fun c hc => hs' c (by simp [hc])) h.2
      exact ⟨by rw [h.1, e1], e2⟩

theorem not_nameChar {c : Char} (h : c = ' ' ∨ c = '\t' ∨ c = '\n' ∨ c = '>' ∨ c = '/' ∨ c = '=' ∨ c = '!') :
    ¬ XmlNameChar c := by
  rcases h with h | h | h | h | h | h | h <;> subst h <;> simp [XmlNameChar, XmlNameStart]

theorem name_nameChars {n : Str} (h : XmlName n) : ∀ c ∈ n, XmlNameChar c := by
  obtain ⟨c, t, rfl, h1, h2⟩ := h
  intro d hd
  simp only [List.mem_cons] at hd
  rcases hd with rfl | hd
  · exact .inl h1
  · exact h2 d hd

theorem name_ne_nil {n : Str} (h : XmlName n) : n ≠ [] := by
  obtain ⟨c, t, rfl, h1, h2⟩ := h; simp

theorem attrs_head {a : Str} {as : List (Str × Str)} (h : Attrs a as) :
    a = [] ∨ ∃ c t, a = c :: t ∧ (c = ' ' ∨ c = '\t' ∨ c = '\n') := by
  cases h with
  | nil => exact .inl rfl
  | @cons w n v val s as hw hn hv ha =>
    obtain ⟨hw1, hw2⟩ := hw
    cases w with
    | nil => exact absurd rfl hw1
    | cons c w =>
      exact .inr ⟨c, w ++ n ++ '=' :: '"' :: v ++ '"' :: s, by simp, hw2 c (by simp)⟩

theorem name_attrs_unique {n n' a a' t t' : Str} {as as' : List (Str × Str)} (hn : XmlName n) (hn' : XmlName n')
    (ha : Attrs a as) (ha' : Attrs a' as')
    (ht : ∀ c ∈ t.head?, c = '>' ∨ c = '/') (ht' : ∀ c ∈ t'.head?, c = '>' ∨ c = '/')
    (h : n ++ (a ++ t) = n' ++ (a' ++ t')) : n = n' ∧ a ++ t = a' ++ t' := by
  refine span_unique XmlNameChar (name_nameChars hn) (name_nameChars hn') ?_ ?_ h
  · intro c hc
    rcases attrs_head ha with rfl | ⟨d, u, rfl, hd⟩
    · rcases ht c hc with rfl | rfl <;> exact not_nameChar (by simp)
    · simp only [List.cons_append, List.head?_cons, Option.mem_some_iff] at hc
      subst hc
      exact not_nameChar (by rcases hd with h | h | h <;> simp [h])
  · intro c hc
    rcases attrs_head ha' with rfl | ⟨d, u, rfl, hd⟩
    · rcases ht' c hc with rfl | rfl <;> exact not_nameChar (by simp)
    · simp only [List.cons_append, List.head?_cons, Option.mem_some_iff] at hc
      subst hc
      exact not_nameChar (by rcases hd with h | h | h <;> simp [h])

theorem ref_chars {r : Str} {c : Char} (h : Ref r c) : ∀ d ∈ r, d ≠ ';' := by
  cases h with
  | num ds c h0 h1 h2 h3 =>
    intro d hd e
    subst e
    simp only [List.mem_cons] at hd
    rcases hd with hd | hd
    · exact absurd hd (by decide)
    · have := h1 _ hd
      revert this; decide
  | _ => decide

theorem ref_unique {r r' t t' : Str} {c c' : Char} (h : Ref r c) (h' : Ref r' c')
    (e : r ++ ';' :: t = r' ++ ';' :: t') : r = r' ∧ c = c' ∧ t = t' := by
  obtain ⟨e1, e2⟩ := span_unique (· ≠ ';') (ref_chars h) (ref_chars h') (by simp) (by simp) e
  refine ⟨e1, ?_, by simpa using e2⟩
  subst e1
  cases h with
  | num ds c h0 h1 h2 h3 =>
    cases h' with
    | num ds c' h0' h1' h2' h3' => exact Char.toNat_inj.mp (h2.symm.trans h2')
  | _ => cases h'; rfl

theorem attVal_unique {v val : Str} (h : AttVal v val) : ∀ {v' val' t t' : Str}, AttVal v' val' →
    v ++ '"' :: t = v' ++ '"' :: t' → v = v' ∧ val = val' ∧ t = t' := by
  induction h with
  | nil =>
    intro v' val' t t' h' e
    cases h' with
    | nil => simpa using e
    | chr c h0 h1 h2 h3 => simp at e; exact absurd e.1.symm h3
    | space c h0 => simp at e; rcases h0 with rfl | rfl <;> exact absurd e.1 (by decide)
    | ref h0 h1 => simp at e
  | chr c h0 h1 h2 h3 h4 h5 h6 hv ih =>
    intro v' val' t t' h' e
    cases h' with
    | nil => simp at e; exact absurd e.1 h3
    | chr c' h0' h1' h2' h3' h4' h5' h6' hv' =>
      simp only [List.cons_append, List.cons.injEq] at e
      obtain ⟨e1, e2, e3⟩ := ih hv' e.2
      exact ⟨by rw [e.1, e1], by rw [e.1, e2], e3⟩
    | space c' h0' =>
      simp at e
      rcases h0' with rfl | rfl
      · exact absurd e.1 h4
      · exact absurd e.1 h5
    | ref h0' h1' => simp at e; exact absurd e.1 h2
  | space c h0 hv ih =>
    intro v' val' t t' h' e
    cases h' with
    | nil => simp at e; rcases h0 with rfl | rfl <;> exact absurd e.1 (by decide)
    | chr c' h0' h1' h2' h3' h4' h5' h6' hv' =>
      simp at e
      rcases h0 with rfl | rfl
      · exact absurd e.1.symm h4'
      · exact absurd e.1.symm h5'
    | space c' h0' hv' =>
      simp only [List.cons_append, List.cons.injEq] at e
      obtain ⟨e1, e2, e3⟩ := ih hv' e.2
      exact ⟨by rw [e.1, e1], by rw [e2], e3⟩
    | ref h0' h1' => simp at e; rcases h0 with rfl | rfl <;> exact absurd e.1 (by decide)
  | @ref r c s v hr hv ih =>
    intro v' val' t t' h' e
    cases h' with
    | nil => simp at e
    | chr c' h0' h1' h2' => simp at e; exact absurd e.1.symm h2'
    | space c' h0' => simp at e; rcases h0' with rfl | rfl <;> exact absurd e.1 (by decide)
    | @ref r' c' s' v' hr' hv' =>
      simp only [List.cons_append, List.append_assoc, List.cons.injEq, true_and] at e
      obtain ⟨e1, e2, e3⟩ := ref_unique hr hr' e
      obtain ⟨e4, e5, e6⟩ := ih hv' e3
      exact ⟨by rw [e1, e4], by rw [e2, e5], e6⟩

theorem space_unique {w w' n n' t t' : Str} (hw : Space w) (hw' : Space w') (hn : XmlName n) (hn' : XmlName n')
    (h : w ++ (n ++ t) = w' ++ (n' ++ t')) : w = w' ∧ n ++ t = n' ++ t' := by
  refine span_unique (fun c => c = ' ' ∨ c = '\t' ∨ c = '\n') hw.2 hw'.2 ?_ ?_ h
  · intro c hc
    obtain ⟨d, u, rfl, hd, hu⟩ := hn
    simp only [List.cons_append, List.head?_cons, Option.mem_some_iff] at hc
    subst hc
    rintro (rfl | rfl | rfl) <;> exact not_nameChar (by simp) (.inl hd)
  · intro c hc
    obtain ⟨d, u, rfl, hd, hu⟩ := hn'
    simp only [List.cons_append, List.head?_cons, Option.mem_some_iff] at hc
    subst hc
    rintro (rfl | rfl | rfl) <;> exact not_nameChar (by simp) (.inl hd)

theorem attrs_unique {a : Str} {as : List (Str × Str)} (h : Attrs a as) : ∀ {a' t t' : Str} {as' : List (Str × Str)},
    Attrs a' as' → (∀ c ∈ t.head?, c = '>' ∨ c = '/') → (∀ c ∈ t'.head?, c = '>' ∨ c = '/') → t ≠ [] → t' ≠ [] →
    a ++ t = a' ++ t' → a = a' ∧ as = as' ∧ t = t' := by
  induction h with
  | nil =>
    intro a' t t' as' h' ht ht' n0 n0' e
    cases h' with
    | nil => exact ⟨rfl, rfl, e⟩
    | @cons w n v val s as hw hn hv ha =>
      exfalso
      obtain ⟨hw1, hw2⟩ := hw
      cases w with
      | nil => exact hw1 rfl
      | cons c w =>
        simp only [List.nil_append, List.cons_append] at e
        subst e
        have := ht c (by simp)
        have := hw2 c (by simp)
        rcases this with rfl | rfl | rfl <;> simp_all
  | @cons w n v val s as hw hn hv ha ih =>
    intro a' t t' as' h' ht ht' n0 n0' e
    cases h' with
    | nil =>
      exfalso
      obtain ⟨hw1, hw2⟩ := hw
      cases w with
      | nil => exact hw1 rfl
      | cons c w =>
        simp only [List.nil_append, List.cons_append] at e
        subst e
        have := ht' c (by simp)
        have := hw2 c (by simp)
        rcases this with rfl | rfl | rfl <;> simp_all
    | @cons w' n' v' val' s' as' hw' hn' hv' ha' =>
      simp only [List.append_assoc, List.cons_append] at e
      obtain ⟨e1, e2⟩ := space_unique hw hw' hn hn' e
      obtain ⟨e3, e4⟩ := span_unique XmlNameChar (name_nameChars hn) (name_nameChars hn')
        (by simp [not_nameChar]) (by simp [not_nameChar]) e2
      simp only [List.cons.injEq, true_and] at e4
      obtain ⟨e5, e6, e7⟩ := attVal_unique hv hv' e4
      obtain ⟨e8, e9, e10⟩ := ih ha' ht ht' n0 n0' e7
      refine ⟨by rw [e1, e3, e5, e8], by rw [e3, e6, e9], e10⟩

/-- A terminated section has one end: the first occurrence of the terminator. -/
theorem first_occurrence {m d d' t t' : Str} (hm : m ≠ []) (h : ¬ Occurs m (d ++ m.dropLast))
    (h' : ¬ Occurs m (d' ++ m.dropLast)) (e : d ++ (m ++ t) = d' ++ (m ++ t')) : d = d' := by
  have key : ∀ {d d' t t' : Str}, ¬ Occurs m (d' ++ m.dropLast) → d ++ (m ++ t) = d' ++ (m ++ t') →
      ¬ d.length < d'.length := by
    intro d d' t t' h' e hlt
    apply h'
    -- `m` lies within the first `d'.length + m.length - 1` characters
    have hlen : (m.dropLast).length = m.length - 1 := by simp
    have h1 : (d ++ m) <+: (d' ++ (m ++ t')) := by
      rw [← e, ← List.append_assoc]; exact List.prefix_append _ _
    have h2 : (d' ++ m.dropLast) <+: (d' ++ (m ++ t')) := by
      refine (List.prefix_append_right_inj _).mpr ?_
      exact (List.dropLast_prefix m).trans (List.prefix_append _ _)
    have hpos : 0 < m.length := List.length_pos_iff.mpr hm
    have h3 : (d ++ m) <+: (d' ++ m.dropLast) := by
      refine List.prefix_of_prefix_length_le h1 h2 ?_
      simp only [List.length_append, hlen]; omega
    exact (List.suffix_append d m).isInfix.trans h3.isInfix
  have l1 := key h' e
  have l2 := key h e.symm
  exact (List.append_inj e (by omega)).1

/-- The character after the content of an element: the end, or an end tag. -/
def Stop (t : Str) : Prop := t = [] ∨ ∃ u, t = '<' :: '/' :: u

theorem name_head {n : Str} (h : XmlName n) : ∃ c u, n = c :: u ∧ c ≠ '!' ∧ c ≠ '/' := by
  obtain ⟨c, t, rfl, h1, h2⟩ := h
  exact ⟨c, t, rfl, fun e => not_nameChar (by simp [e]) (.inl h1), fun e => not_nameChar (by simp [e]) (.inl h1)⟩

/-- What a content text can begin with, seen together with what follows it. -/
theorem reads_head {s : Str} {ns : List Node} (h : Reads s ns) (hs : s ≠ []) (t u : Str) :
    s ++ t ≠ '<' :: '/' :: u := by
  cases h with
  | nil => exact absurd rfl hs
  | chr c h0 h1 => intro e; simp at e; exact h1 e.1
  | ref hr => intro e; simp at e
  | cdata hd => intro e; simp at e
  | comment hd => intro e; simp at e
  | elem hn =>
    obtain ⟨c, u', rfl, h1, h2⟩ := name_head hn
    intro e; simp at e; exact h2 e.1
  | empty hn =>
    obtain ⟨c, u', rfl, h1, h2⟩ := name_head hn
    intro e; simp at e; exact h2 e.1

theorem reads_prefix_unique {s : Str} {ns : List Node} (h : Reads s ns) : ∀ {s' t t' : Str} {ns' : List Node},
    Reads s' ns' → Stop t → Stop t' → s ++ t = s' ++ t' → s = s' ∧ ns = ns' ∧ t = t' := by
  induction h with
  | nil =>
    intro s' t t' ns' h' ht ht' e
    by_cases hs : s' = []
    · subst hs
      cases h'
      exact ⟨rfl, rfl, e⟩
    · exfalso
      rcases ht with rfl | ⟨u, rfl⟩
      · simp at e; exact hs e.1
      · exact reads_head h' hs t' u e.symm
  | chr c h0 h1 h2 h3 h4 hr ih =>
    intro s' t t' ns' h' ht ht' e
    cases h' with
    | nil =>
      exfalso
      rcases ht' with rfl | ⟨u, rfl⟩
      · simp at e
      · simp at e; exact h1 e.1
    | chr c' h0' h1' h2' h3' h4' hr' =>
      simp only [List.cons_append, List.cons.injEq] at e
      obtain ⟨e1, e2, e3⟩ := ih hr' ht ht' e.2
      exact ⟨by rw [e.1, e1], by rw [e.1, e2], e3⟩
    | ref hr' => simp at e; exact absurd e.1 h2
    | cdata hd => simp at e; exact absurd e.1 h1
    | comment hd => simp at e; exact absurd e.1 h1
    | elem hn => simp at e; exact absurd e.1 h1
    | empty hn => simp at e; exact absurd e.1 h1
  | @ref r c s ns hr hs ih =>
    intro s' t t' ns' h' ht ht' e
    cases h' with
    | nil =>
      exfalso
      rcases ht' with rfl | ⟨u, rfl⟩ <;> simp at e
    | chr c' h0' h1' h2' => simp at e; exact absurd e.1.symm h2'
    | @ref r' c' s' ns' hr' hs' =>
      simp only [List.cons_append, List.append_assoc, List.cons.injEq, true_and] at e
      obtain ⟨e1, e2, e3⟩ := ref_unique hr hr' e
      obtain ⟨e4, e5, e6⟩ := ih hs' ht ht' e3
      exact ⟨by rw [e1, e4], by rw [e2, e5], e6⟩
    | cdata hd => simp at e
    | comment hd => simp at e
    | elem hn => simp at e
    | empty hn => simp at e
  | @cdata d s ns hd ho hs ih =>
    intro s' t t' ns' h' ht ht' e
    cases h' with
    | nil =>
      exfalso
      rcases ht' with rfl | ⟨u, rfl⟩ <;> simp at e
    | chr c' h0' h1' h2' => simp at e; exact absurd e.1.symm h1'
    | ref hr' => simp at e
    | @cdata d' s' ns' hd' ho' hs' =>
      simp only [List.cons_append, List.append_assoc, List.cons.injEq, true_and] at e
      have hdd : d = d' := first_occurrence (m := [']', ']', '>']) (by simp) ho ho' e
      subst hdd
      simp at e
      obtain ⟨e4, e5, e6⟩ := ih hs' ht ht' e
      exact ⟨by rw [e4], by rw [e5], e6⟩
    | comment hd => simp at e
    | elem hn => obtain ⟨c, u', rfl, h1, h2⟩ := name_head hn; simp at e; exact absurd e.1.symm h1
    | empty hn => obtain ⟨c, u', rfl, h1, h2⟩ := name_head hn; simp at e; exact absurd e.1.symm h1
  | @comment d s ns hd ho hs ih =>
    intro s' t t' ns' h' ht ht' e
    cases h' with
    | nil =>
      exfalso
      rcases ht' with rfl | ⟨u, rfl⟩ <;> simp at e
    | chr c' h0' h1' h2' => simp at e; exact absurd e.1.symm h1'
    | ref hr' => simp at e
    | cdata hd => simp at e
    | @comment d' s' ns' hd' ho' hs' =>
      simp only [List.cons_append, List.append_assoc, List.cons.injEq, true_and] at e
      have hdd : d = d' := first_occurrence (m := ['-', '-']) (by simp) ho ho'
        (t := '>' :: (s ++ t)) (t' := '>' :: (s' ++ t')) e
      subst hdd
      simp at e
      obtain ⟨e4, e5, e6⟩ := ih hs' ht ht' e
      exact ⟨by rw [e4], by rw [e5], e6⟩
    | elem hn => obtain ⟨c, u', rfl, h1, h2⟩ := name_head hn; simp at e; exact absurd e.1.symm h1
    | empty hn => obtain ⟨c, u', rfl, h1, h2⟩ := name_head hn; simp at e; exact absurd e.1.symm h1
  | @elem n a k s as ks ns hn ha hd hk hs ihk ihs =>
    intro s' t t' ns' h' ht ht' e
    cases h' with
    | nil =>
      exfalso
      rcases ht' with rfl | ⟨u, rfl⟩
      · simp at e
      · obtain ⟨c, u', rfl, h1, h2⟩ := name_head hn; simp at e; exact h2 e.1
    | chr c' h0' h1' h2' => simp at e; exact absurd e.1.symm h1'
    | ref hr' => simp at e
    | cdata hd => obtain ⟨c, u', rfl, h1, h2⟩ := name_head hn; simp at e; exact absurd e.1 h1
    | comment hd => obtain ⟨c, u', rfl, h1, h2⟩ := name_head hn; simp at e; exact absurd e.1 h1
    | @elem n' a' k' s' as' ks' ns' hn' ha' hd' hk' hs' =>
      simp only [List.cons_append, List.append_assoc, List.cons.injEq, true_and] at e
      obtain ⟨e1, e2⟩ := name_attrs_unique hn hn' ha ha' (by simp) (by simp) e
      obtain ⟨e3, e4, e5⟩ := attrs_unique ha ha' (by simp) (by simp) (by simp) (by simp) e2
      simp only [List.cons.injEq, true_and] at e5
      obtain ⟨e6, e7, e8⟩ := ihk hk' (.inr ⟨_, rfl⟩) (.inr ⟨_, rfl⟩) e5
      subst e1
      simp only [List.cons.injEq, true_and, List.append_cancel_left_eq] at e8
      obtain ⟨e9, e10, e11⟩ := ihs hs' ht ht' e8
      exact ⟨by rw [e3, e6, e9], by rw [e4, e7, e10], e11⟩
    | @empty n' a' s' as' ns' hn' ha' hd' hs' =>
      exfalso
      simp only [List.cons_append, List.append_assoc, List.cons.injEq, true_and] at e
      obtain ⟨e1, e2⟩ := name_attrs_unique hn hn' ha ha' (by simp) (by simp) e
      obtain ⟨e3, e4, e5⟩ := attrs_unique ha ha' (by simp) (by simp) (by simp) (by simp) e2
      simp at e5
  | @empty n a s as ns hn ha hd hs ih =>
    intro s' t t' ns' h' ht ht' e
    cases h' with
    | nil =>
      exfalso
      rcases ht' with rfl | ⟨u, rfl⟩
      · simp at e
      · obtain ⟨c, u', rfl, h1, h2⟩ := name_head hn; simp at e; exact h2 e.1
    | chr c' h0' h1' h2' => simp at e; exact absurd e.1.symm h1'
    | ref hr' => simp at e
    | cdata hd => obtain ⟨c, u', rfl, h1, h2⟩ := name_head hn; simp at e; exact absurd e.1 h1
    | comment hd => obtain ⟨c, u', rfl, h1, h2⟩ := name_head hn; simp at e; exact absurd e.1 h1
    | @elem n' a' k' s' as' ks' ns' hn' ha' hd' hk' hs' =>
      exfalso
      simp only [List.cons_append, List.append_assoc, List.cons.injEq, true_and] at e
      obtain ⟨e1, e2⟩ := name_attrs_unique hn hn' ha ha' (by simp) (by simp) e
      obtain ⟨e3, e4, e5⟩ := attrs_unique ha ha' (by simp) (by simp) (by simp) (by simp) e2
      simp at e5
    | @empty n' a' s' as' ns' hn' ha' hd' hs' =>
      simp only [List.cons_append, List.append_assoc, List.cons.injEq, true_and] at e
      obtain ⟨e1, e2⟩ := name_attrs_unique hn hn' ha ha' (by simp) (by simp) e
      obtain ⟨e3, e4, e5⟩ := attrs_unique ha ha' (by simp) (by simp) (by simp) (by simp) e2
      simp only [List.cons.injEq, true_and] at e5
      obtain ⟨e9, e10, e11⟩ := ih hs' ht ht' e5
      exact ⟨by rw [e1, e3, e9], by rw [e1, e4, e10], e11⟩

/-- A text reads in at most one way. -/
theorem reads_unique {s : Str} {ns ns' : List Node} (h : Reads s ns) (h' : Reads s ns') : ns = ns' :=
  (reads_prefix_unique h h' (t := []) (t' := []) (.inl rfl) (.inl rfl) rfl).2.1

theorem chars_elem_unique {w w' : Str} {x x' : Node} {r r' : List Node} (hx : ∀ c, x ≠ .chr c) (hx' : ∀ c, x' ≠ .chr c)
    (h : w.map Node.chr ++ x :: r = w'.map Node.chr ++ x' :: r') : x = x' := by
  induction w generalizing w' with
  | nil =>
    cases w' with
    | nil => simp only [List.map_nil, List.nil_append, List.cons.injEq] at h; exact h.1
    | cons c t =>
      simp only [List.map_nil, List.nil_append, List.map_cons, List.cons_append, List.cons.injEq] at h
      exact absurd h.1 (hx c)
  | cons d u ih =>
    cases w' with
    | nil =>
      simp only [List.map_nil, List.nil_append, List.map_cons, List.cons_append, List.cons.injEq] at h
      exact absurd h.1.symm (hx' d)
    | cons c t =>
      simp only [List.map_cons, List.cons_append, List.cons.injEq] at h
      exact ih h.2

/-- A document reads in at most one way. -/
theorem document_unique {s n n' : Str} {as as' : List (Str × Str)} {ks ks' : List Node}
    (h : ReadsDocument s (.elem n as ks)) (h' : ReadsDocument s (.elem n' as' ks')) :
    Node.elem n as ks = .elem n' as' ks' := by
  obtain ⟨d, b, e, hd, w, v, hw, hr⟩ := h
  obtain ⟨d', b', e', hd', w', v', hw', hr'⟩ := h'
  have key : ∀ d b d' b' : Str, d = "<?xml version=\"1.0\"?>".toList →
      d' = "<?xml version=\"1.0\" encoding=\"UTF-8\"?>".toList → d ++ b = d' ++ b' → False := by
    intro d b d' b' h1 h2 h3
    have h4 : (d ++ b)[19]? = (d' ++ b')[19]? := by rw [h3]
    subst h1 h2
    rw [List.getElem?_append_left (by decide +kernel), List.getElem?_append_left (by decide +kernel)] at h4
    revert h4
    decide +kernel
  have hdd : d = d' := by
    rcases hd with hd | hd <;> rcases hd' with hd' | hd'
    · rw [hd, hd']
    · exact (key d b d' b' hd hd' (e.symm.trans e')).elim
    · exact (key d' b' d b hd' hd (e'.symm.trans e)).elim
    · rw [hd, hd']
  have hbb : b = b' := by
    rw [e, hdd] at e'
    exact List.append_cancel_left e'
  subst hbb
  exact chars_elem_unique (by simp) (by simp) (reads_unique hr hr')

/-! ## Concatenation -/

theorem reads_append {s t : Str} {ns ms : List Node} (h : Reads s ns) (h' : Reads t ms) :
    Reads (s ++ t) (ns ++ ms) := by
  induction h with
  | nil => exact h'
  | chr c h0 h1 h2 h3 h4 hr ih => exact .chr c h0 h1 h2 h3 h4 ih
  | ref hr hs ih => simpa using Reads.ref hr ih
  | cdata hd ho hs ih => simpa using Reads.cdata hd ho ih
  | comment hd ho hs ih => simpa using Reads.comment hd ho ih
  | elem hn ha hd hk hs ihk ihs => simpa using Reads.elem hn ha hd hk ihs
  | empty hn ha hd hs ih => simpa using Reads.empty hn ha hd ih

theorem attrs_append {s t : Str} {as bs : List (Str × Str)} (h : Attrs s as) (h' : Attrs t bs) :
    Attrs (s ++ t) (as ++ bs) := by
  induction h with
  | nil => exact h'
  | cons hw hn hv ha ih => simpa using Attrs.cons hw hn hv ih

end Verif.Spec
