import Verif.Model.Names
import Verif.Spec.Names
import Verif.Props.CharClass

/-! # C25, C26, C44–C46: names, identifiers, views and warnings -/

set_option linter.unusedVariables false

namespace Verif.Props

open Verif Verif.Names Verif.Spec Verif.CC

/-! ## C44: the name tests -/

/-- What a constructor argument contributes. -/
def argMem (a : Arg) (c : Nat) : Prop :=
  match a with
  | .chars cs => c ∈ cs
  | .range a z => min a z ≤ c ∧ c ≤ max a z
  | .cls rs => Mem rs c

theorem addChars_ok (cs : List Nat) : ∀ {rs : List Rg}, Sorted rs →
    Sorted (cs.foldl (addChar 0) rs) ∧ ∀ c, Mem (cs.foldl (addChar 0) rs) c ↔ Mem rs c ∨ c ∈ cs := by
  induction cs with
  | nil => intro rs hs; exact ⟨hs, fun c => by simp⟩
  | cons d cs ih =>
    intro rs hs
    have h1 := addChar_ok 0 hs d
    have h2 := ih h1.1
    refine ⟨h2.1, fun c => ?_⟩
    rw [List.foldl_cons, h2.2, h1.2, List.mem_cons, or_assoc]

theorem mkClass_ok (args : List Arg) (hc : ∀ rs, Arg.cls rs ∈ args → Sorted rs) :
    Sorted (mkClass args) ∧ ∀ c, Mem (mkClass args) c ↔ ∃ a ∈ args, argMem a c := by
  unfold mkClass
  suffices ∀ (args : List Arg) (hc : ∀ rs, Arg.cls rs ∈ args → Sorted rs) (rs : List Rg), Sorted rs →
      Sorted (args.foldl addArg rs) ∧
      ∀ c, Mem (args.foldl addArg rs) c ↔ Mem rs c ∨ ∃ a ∈ args, argMem a c by
    have := this args hc [] Sorted.nil
    refine ⟨this.1, fun c => ?_⟩
    rw [this.2, mem_nil, false_or]
  intro args
  induction args with
  | nil => intro _ rs hs; exact ⟨hs, fun c => by simp⟩
  | cons a args ih =>
    intro hc rs hs
    have ih := ih (fun rs h => hc rs (List.mem_cons_of_mem _ h))
    rw [List.foldl_cons]
    cases a with
    | chars cs =>
      rw [addArg]
      have h1 := addChars_ok cs hs
      have h2 := ih _ h1.1
      refine ⟨h2.1, fun c => ?_⟩
      rw [h2.2, h1.2]; simp [argMem, or_assoc]
    | range a z =>
      rw [addArg]
      have h1 := addRange_ok 0 hs a z
      have h2 := ih _ h1.1
      refine ⟨h2.1, fun c => ?_⟩
      rw [h2.2, h1.2]; simp [argMem, or_assoc]
    | cls o =>
      rw [addArg]
      have h1 := addClass_ok 0 hs (hc o (by simp))
      have h2 := ih _ h1.1
      refine ⟨h2.1, fun c => ?_⟩
      rw [h2.2, h1.2]; simp [argMem, or_assoc]

theorem nameStartCharClass_ok : Sorted nameStartCharClass ∧ ∀ c, Mem nameStartCharClass c ↔
    c = 0x3a ∨ (0x41 ≤ c ∧ c ≤ 0x5a) ∨ c = 0x5f ∨ (0x61 ≤ c ∧ c ≤ 0x7a) ∨ (0xc0 ≤ c ∧ c ≤ 0xd6) ∨
    (0xd8 ≤ c ∧ c ≤ 0xf6) ∨ (0xf8 ≤ c ∧ c ≤ 0x2ff) ∨ (0x370 ≤ c ∧ c ≤ 0x37d) ∨ (0x37f ≤ c ∧ c ≤ 0x1fff) ∨
    (0x200c ≤ c ∧ c ≤ 0x200d) ∨ (0x2070 ≤ c ∧ c ≤ 0x218f) ∨ (0x2c00 ≤ c ∧ c ≤ 0x2fef) ∨ (0x3001 ≤ c ∧ c ≤ 0xd7ff) ∨
    (0xf900 ≤ c ∧ c ≤ 0xfdcf) ∨ (0xfdf0 ≤ c ∧ c ≤ 0xfffd) := by
  have h := mkClass_ok [.chars [0x3a], .range 0x41 0x5a, .chars [0x5f], .range 0x61 0x7a,
    .range 0xc0 0xd6, .range 0xd8 0xf6, .range 0xf8 0x2ff, .range 0x370 0x37d, .range 0x37f 0x1fff,
    .range 0x200c 0x200d, .range 0x2070 0x218f, .range 0x2c00 0x2fef, .range 0x3001 0xd7ff, .range 0xf900 0xfdcf,
    .range 0xfdf0 0xfffd] (by simp)
  refine ⟨h.1, fun c => ?_⟩
  rw [nameStartCharClass, h.2]
  simp [argMem]

theorem nameCharClass_ok : Sorted nameCharClass ∧ ∀ c, Mem nameCharClass c ↔
    Mem nameStartCharClass c ∨ c = 0x2d ∨ c = 0x2e ∨ (0x30 ≤ c ∧ c ≤ 0x39) ∨ c = 0xb7 ∨ (0x300 ≤ c ∧ c ≤ 0x36f) ∨
    (0x203f ≤ c ∧ c ≤ 0x2040) := by
  have h := mkClass_ok [.cls nameStartCharClass, .chars [0x2d], .chars [0x2e], .range 0x30 0x39,
    .chars [0xb7], .range 0x300 0x36f, .range 0x203f 0x2040]
    (by intro rs hr; simp at hr; rw [hr]; exact nameStartCharClass_ok.1)
  refine ⟨h.1, fun c => ?_⟩
  rw [nameCharClass, h.2]
  simp only [List.mem_cons, exists_eq_or_imp, argMem, List.not_mem_nil, or_false]
  simp

theorem char_eq_iff (c d : Char) : c = d ↔ c.toNat = d.toNat := by
  constructor
  · rintro rfl; rfl
  · exact fun h => Char.toNat_inj.1 h

/-- **C44 (guarded).**  For every character of the basic multilingual plane the name-start test agrees with the
XML production. -/
theorem name_start_test_partial (c : Char) (h : c.toNat < 0x10000) : isNameStartChar c = true ↔ XmlNameStart c := by
  have e : isNameStartChar c = true ↔ Mem nameStartCharClass c.toNat := by
    unfold isNameStartChar
    dsimp only
    by_cases h1 : c.toNat ≤ 0x7a
    · rw [if_pos h1, nameStartCharClass_ok.2]
      split
      · simp; omega
      · split
        · split
          · simp; omega
          · rw [beq_iff_eq]; omega
        · rw [beq_iff_eq]; omega
    · rw [if_neg h1, test_iff nameStartCharClass_ok.1]
  rw [e, nameStartCharClass_ok.2]
  unfold XmlNameStart
  have h1 : c = ':' ↔ c.toNat = 0x3a := char_eq_iff c ':'
  have h2 : c = '_' ↔ c.toNat = 0x5f := char_eq_iff c '_'
  rw [h1, h2]
  omega

/-- **C44 (guarded).**  For every character of the basic multilingual plane the name-character test agrees with the
XML production. -/
theorem name_char_test_partial (c : Char) (h : c.toNat < 0x10000) : isNameChar c = true ↔ XmlNameChar c := by
  have e : isNameChar c = true ↔ Mem nameCharClass c.toNat := by
    unfold isNameChar
    dsimp only
    by_cases h1 : c.toNat ≤ 0x7a
    · rw [if_pos h1, nameCharClass_ok.2, nameStartCharClass_ok.2]
      split
      · simp; omega
      · split
        · split
          · simp; omega
          · split
            · split
              · simp; omega
              · rw [Bool.or_eq_true, beq_iff_eq, beq_iff_eq]; omega
            · rw [beq_iff_eq]; omega
        · rw [beq_iff_eq]; omega
    · rw [if_neg h1, test_iff nameCharClass_ok.1]
  rw [e, nameCharClass_ok.2, nameStartCharClass_ok.2]
  unfold XmlNameChar XmlNameStart
  have h1 : c = ':' ↔ c.toNat = 0x3a := char_eq_iff c ':'
  have h2 : c = '_' ↔ c.toNat = 0x5f := char_eq_iff c '_'
  have h3 : c = '-' ↔ c.toNat = 0x2d := char_eq_iff c '-'
  have h4 : c = '.' ↔ c.toNat = 0x2e := char_eq_iff c '.'
  rw [h1, h2, h3, h4]
  omega

/-- Characters above the basic multilingual plane are rejected by both tests. -/
theorem astral_rejected (c : Char) (h : 0x10000 ≤ c.toNat) : isNameStartChar c = false ∧ isNameChar c = false := by
  have h1 : ¬ c.toNat ≤ 0x7a := by omega
  constructor
  · rw [← Bool.not_eq_true]
    unfold isNameStartChar
    simp only [h1, if_false]
    rw [test_iff nameStartCharClass_ok.1, nameStartCharClass_ok.2]
    omega
  · rw [← Bool.not_eq_true]
    unfold isNameChar
    simp only [h1, if_false]
    rw [test_iff nameCharClass_ok.1, nameCharClass_ok.2, nameStartCharClass_ok.2]
    omega

/-- **C44 refuted.**  A legal name character above the basic multilingual plane is rejected. -/
theorem astral_name_rejected : XmlNameStart (Char.ofNat 0x10000) ∧ isNameStartChar (Char.ofNat 0x10000) = false := by
  refine ⟨?_, (astral_rejected _ (by decide)).1⟩
  unfold XmlNameStart
  have : (Char.ofNat 0x10000).toNat = 0x10000 := by decide
  dsimp only
  rw [this]
  omega

/-- Whatever is accepted is legal. -/
theorem name_start_sound (c : Char) (h : isNameStartChar c = true) : XmlNameStart c := by
  by_cases hb : c.toNat < 0x10000
  · exact (name_start_test_partial c hb).1 h
  · rw [(astral_rejected c (by omega)).1] at h; cases h

/-- Whatever is accepted is legal. -/
theorem name_char_sound (c : Char) (h : isNameChar c = true) : XmlNameChar c := by
  by_cases hb : c.toNat < 0x10000
  · exact (name_char_test_partial c hb).1 h
  · rw [(astral_rejected c (by omega)).2] at h; cases h

theorem name_start_is_name (c : Char) (h : isNameStartChar c = true) : isNameChar c = true := by
  by_cases hb : c.toNat < 0x10000
  · exact (name_char_test_partial c hb).2 (Or.inl ((name_start_test_partial c hb).1 h))
  · rw [(astral_rejected c (by omega)).1] at h; cases h

/-- Names accepted by the NCName test are NCNames; in the basic multilingual plane all NCNames are accepted. -/
theorem ncname_test_partial (s : Str) :
    (isValidNCName s = true → IsNCName s) ∧
    ((∀ c ∈ s, c.toNat < 0x10000) → IsNCName s → isValidNCName s = true) := by
  constructor
  · intro h
    cases s with
    | nil => cases h
    | cons c t =>
      simp only [isValidNCName, Bool.and_eq_true, List.all_eq_true, bne_iff_ne, ne_eq] at h
      refine ⟨c, t, rfl, name_start_sound c h.1.1, fun d hd => name_char_sound d (h.2 d hd).1, fun d hd => ?_⟩
      rcases List.mem_cons.1 hd with rfl | hd
      · exact h.1.2
      · exact (h.2 d hd).2
  · rintro hb ⟨c, t, rfl, h1, h2, h3⟩
    simp only [isValidNCName, Bool.and_eq_true, List.all_eq_true, bne_iff_ne, ne_eq]
    refine ⟨⟨(name_start_test_partial c (hb c (by simp))).2 h1, h3 c (by simp)⟩, fun d hd => ⟨?_, h3 d (by simp [hd])⟩⟩
    exact (name_char_test_partial d (hb d (by simp [hd]))).2 (h2 d hd)

example : isValidNCName "Q1.part-2_é".toList = true ∧ isValidNCName "1Q".toList = false := by decide +kernel

/-! ## C25: converted identifiers -/

/-- Replacement of dots. -/
def undot (c : Char) : Char := if c = '.' then '_' else c

theorem isNameChar_underscore : isNameChar '_' = true := by decide +kernel
theorem isNameChar_hyphen : isNameChar '-' = true := by decide +kernel

theorem fix_ok (c : Char) : isNameChar (undot (fixNameChar c)) = true ∧ undot (fixNameChar c) ≠ ':' ∧
    undot (fixNameChar c) ≠ '.' := by
  unfold fixNameChar undot
  by_cases h1 : c = ':'
  · simp [h1, isNameChar_hyphen]
  · by_cases h2 : isNameChar c = true
    · simp only [h1, h2, if_true, if_false]
      by_cases h3 : c = '.'
      · simp [h3, isNameChar_underscore]
      · simp [h3, h1, h2]
    · have h2 : isNameChar c = false := by simpa using h2
      simp [h1, h2, isNameChar_underscore]


theorem dropWhile_head {p : Char → Bool} : ∀ {s : Str} {c : Char} {t : Str}, s.dropWhile p = c :: t → p c = false
  | [], _, _, h => by simp at h
  | d :: s, c, t, h => by
    rw [List.dropWhile_cons] at h
    split at h
    · exact dropWhile_head h
    · rename_i hd
      injection h with h1 h2
      subst h1
      simpa using hd

theorem dropWhile_getLast {p : Char → Bool} : ∀ {s : Str} {c : Char}, (s.dropWhile p).getLast? = some c →
    s.getLast? = some c
  | [], _, h => by simp at h
  | d :: s, c, h => by
    rw [List.dropWhile_cons] at h
    split at h
    · have := dropWhile_getLast h
      rw [List.getLast?_cons, this]; simp
    · exact h

/-- The ends of a stripped string are not spaces. -/
theorem strip_ends (s : Str) : (∀ c ∈ (strip s).head?, isSpace c = false) ∧
    (∀ c ∈ (strip s).getLast?, isSpace c = false) := by
  constructor
  · intro c hc
    unfold strip at hc
    rw [List.head?_reverse] at hc
    have h2 := dropWhile_getLast hc
    rw [List.getLast?_reverse] at h2
    cases hs : s.dropWhile isSpace with
    | nil => simp [hs] at h2
    | cons d t =>
      rw [hs] at h2
      simp at h2
      subst h2
      exact dropWhile_head hs
  · intro c hc
    unfold strip at hc
    rw [List.getLast?_reverse] at hc
    cases hs : (s.dropWhile isSpace).reverse.dropWhile isSpace with
    | nil => simp [hs] at hc
    | cons d t =>
      rw [hs] at hc
      simp at hc
      subst hc
      exact dropWhile_head hs

/-- A string whose ends are not spaces is not changed by stripping. -/
theorem strip_id (s : Str) (h1 : ∀ c ∈ s.head?, isSpace c = false) (h2 : ∀ c ∈ s.getLast?, isSpace c = false) :
    strip s = s := by
  have e1 : s.dropWhile isSpace = s := by
    cases s with
    | nil => rfl
    | cons c t => rw [List.dropWhile_cons, h1 c (by simp)]; simp
  unfold strip
  rw [e1]
  have e2 : s.reverse.dropWhile isSpace = s.reverse := by
    cases hr : s.reverse with
    | nil => rfl
    | cons c t =>
      have : s.getLast? = some c := by rw [← List.head?_reverse, hr]; rfl
      rw [List.dropWhile_cons, h2 c this]; simp
  rw [e2, List.reverse_reverse]

theorem readIdentifier_fst (p v : Str) : (readIdentifier p v).1 = (validateIdentifier p (strip v)).map undot := rfl

theorem undot_id (s : Str) (h : '.' ∉ s) : s.map undot = s := by
  rw [List.map_congr_left (g := id), List.map_id]
  intro c hc
  unfold undot
  rw [if_neg (fun e : c = '.' => h (e ▸ hc))]; rfl

/-- An identifier of the target that contains no dots, as a Boolean test on its characters. -/
def Good (s : Str) : Prop :=
  ∃ c t, s = c :: t ∧ isNameStartChar c = true ∧ (∀ d ∈ s, isNameChar d = true ∧ d ≠ ':' ∧ d ≠ '.')

theorem good_of_prefix (p : Str) (h : isValidNCName p = true) (hd : '.' ∉ p) : Good p := by
  cases p with
  | nil => cases h
  | cons c t =>
    simp only [isValidNCName, Bool.and_eq_true, List.all_eq_true, bne_iff_ne, ne_eq] at h
    refine ⟨c, t, rfl, h.1.1, fun d hdm => ?_⟩
    have hdot : d ≠ '.' := fun e => hd (e ▸ hdm)
    rcases List.mem_cons.1 hdm with rfl | hm
    · exact ⟨name_start_is_name _ h.1.1, h.1.2, hdot⟩
    · exact ⟨(h.2 d hm).1, (h.2 d hm).2, hdot⟩

theorem isNameStart_dot : isNameStartChar '.' = false := by decide +kernel

theorem readIdentifier_good (p v : Str) (hp : isValidNCName p = true) (hd : '.' ∉ p) : Good (readIdentifier p v).1 := by
  have gp := good_of_prefix p hp hd
  rw [readIdentifier_fst]
  cases hv : strip v with
  | nil => simp only [validateIdentifier]; rw [undot_id p hd]; exact gp
  | cons c t =>
    simp only [validateIdentifier, List.map_append, List.map_map]
    have hall : ∀ d ∈ (c :: t).map (undot ∘ fixNameChar), isNameChar d = true ∧ d ≠ ':' ∧ d ≠ '.' := by
      intro d hm
      obtain ⟨e, _, rfl⟩ := List.mem_map.1 hm
      exact fix_ok e
    split
    · obtain ⟨a, b, rfl, g1, g2⟩ := gp
      rw [undot_id _ hd]
      refine ⟨a, _, rfl, g1, fun d hm => ?_⟩
      rcases List.mem_append.1 hm with hm | hm
      · exact g2 d hm
      · exact hall d hm
    · rename_i hc
      simp only [Bool.or_eq_true, Bool.not_eq_true', beq_iff_eq, not_or, Bool.not_eq_false] at hc
      refine ⟨undot (fixNameChar c), t.map (undot ∘ fixNameChar), rfl, ?_, hall⟩
      have h1 : fixNameChar c = c := by
        unfold fixNameChar
        rw [if_neg hc.2, if_pos (name_start_is_name c hc.1)]
      have h2 : undot c = c := by
        unfold undot
        rw [if_neg]
        intro e
        rw [e, isNameStart_dot] at hc
        cases hc.1
      rw [h1, h2]; exact hc.1

theorem good_ncname {s : Str} (h : Good s) : IsNCName s ∧ '.' ∉ s := by
  obtain ⟨c, t, rfl, h1, h2⟩ := h
  exact ⟨⟨c, t, rfl, name_start_sound c h1, fun d hd => name_char_sound d (h2 d (by simp [hd])).1,
    fun d hd => (h2 d hd).2.1⟩, fun hm => (h2 _ hm).2.2 rfl⟩

/-- The prefixes the converter uses for identifiers. -/
def usedPrefixes : List Str := ["ID-", "RESPONSE_", "OUTCOME_", "FEEDBACK_"].map String.toList

theorem usedPrefixes_ok (p : Str) (h : p ∈ usedPrefixes) : isValidNCName p = true ∧ '.' ∉ p := by
  revert p h
  decide +kernel

/-- **C25 (legality).**  Every identifier produced is an XML name without colon (the identifier type of the target
format) and contains no dot, whatever the source identifier, for every prefix the converter uses. -/
theorem identifiers_legal (p v : Str) (h : p ∈ usedPrefixes) :
    IsNCName (readIdentifier p v).1 ∧ '.' ∉ (readIdentifier p v).1 :=
  good_ncname (readIdentifier_good p v (usedPrefixes_ok p h).1 (usedPrefixes_ok p h).2)

theorem good_fixed (p : Str) {s : Str} (h : Good s) : (validateIdentifier p s).map undot = s := by
  obtain ⟨c, t, rfl, h1, h2⟩ := h
  simp only [validateIdentifier]
  have hc : (!isNameStartChar c || c == ':') = false := by
    simp [h1, (h2 c (by simp)).2.1]
  rw [hc]
  simp only [Bool.false_eq_true, if_false, List.nil_append, List.map_map]
  rw [List.map_congr_left (g := id), List.map_id]
  intro d hd
  have := h2 d hd
  show undot (fixNameChar d) = d
  unfold fixNameChar undot
  rw [if_neg this.2.1, if_pos this.1, if_neg this.2.2]

theorem fix_space (c : Char) (h : isSpace c = false) : isSpace (undot (fixNameChar c)) = false := by
  unfold fixNameChar
  by_cases h1 : c = ':'
  · simp [h1]; decide
  · rw [if_neg h1]
    split
    · unfold undot
      split
      · decide
      · exact h
    · decide

theorem readIdentifier_ends (p v : Str) (hp : ∀ c ∈ p, isSpace c = false) :
    strip (readIdentifier p v).1 = (readIdentifier p v).1 := by
  have hu : ∀ c ∈ p.map undot, isSpace c = false := by
    intro c hc
    obtain ⟨d, hd, rfl⟩ := List.mem_map.1 hc
    unfold undot
    split
    · decide
    · exact hp d hd
  obtain ⟨e1, e2⟩ := strip_ends v
  rw [readIdentifier_fst]
  cases hv : strip v with
  | nil =>
    simp only [validateIdentifier]
    refine strip_id _ (fun c hc => hu c (List.mem_of_mem_head? hc)) (fun c hc => hu c (List.mem_of_mem_getLast? hc))
  | cons c t =>
    rw [hv] at e1 e2
    simp only [validateIdentifier, List.map_append, List.map_map]
    apply strip_id
    · split
      · intro d hd
        cases hpp : p with
        | nil =>
          rw [hpp] at hd; simp at hd; subst hd
          exact fix_space c (e1 c (by simp))
        | cons a b =>
          rw [hpp] at hd; simp at hd; subst hd
          exact hu _ (by rw [hpp]; simp)
      · intro d hd
        simp at hd; subst hd
        exact fix_space c (e1 c (by simp))
    · intro d hd
      rw [List.getLast?_append] at hd
      obtain ⟨l, hl⟩ : ∃ l, (c :: t).getLast? = some l := ⟨_, List.getLast?_eq_some_getLast (by simp)⟩
      rw [List.getLast?_map, hl] at hd
      simp at hd
      subst hd
      exact fix_space l (e2 l (by rw [hl]; simp))

theorem usedPrefixes_space (p : Str) (h : p ∈ usedPrefixes) : ∀ c ∈ p, isSpace c = false := by
  revert p h
  decide +kernel

/-- **C25 (stability).**  Converting a converted identifier again, with whatever prefix, leaves it unchanged and
raises no warning. -/
theorem identifiers_stable (p q v : Str) (h : p ∈ usedPrefixes) :
    readIdentifier q (readIdentifier p v).1 = ((readIdentifier p v).1, none) := by
  have h1 := readIdentifier_ends p v (usedPrefixes_space p h)
  have h2 := good_fixed q (readIdentifier_good p v (usedPrefixes_ok p h).1 (usedPrefixes_ok p h).2)
  unfold undot at h2
  generalize (readIdentifier p v).1 = x at h1 h2 ⊢
  unfold readIdentifier
  dsimp only
  rw [h1, h2]
  simp

/-- **C25.**  A legal identifier without dots (basic multilingual plane, no spaces at its ends) is kept as it is. -/
theorem legal_identifier_kept (p v : Str) (h : IsNCName v) (hd : '.' ∉ v) (hb : ∀ c ∈ v, c.toNat < 0x10000)
    (hs : strip v = v) : readIdentifier p v = (v, none) := by
  have hv := (ncname_test_partial v).2 hb h
  have h2 := good_fixed p (good_of_prefix v hv hd)
  unfold undot at h2
  unfold readIdentifier
  dsimp only
  rw [hs, h2]
  simp

example : readIdentifier "RESPONSE_".toList " 1:a.b c".toList =
    ("RESPONSE_1-a_b_c".toList,
      some "Warning: replacing bad identifier \"1:a.b c\" with \"RESPONSE_1-a_b_c\"".toList) := by decide +kernel

/-! ## C45: distinct identifiers stay distinct -/

/-- **C45 refuted.**  Two different source identifiers, both legal names, are converted to the same identifier. -/
theorem identifiers_collide :
    "q1.a".toList ≠ "q1_a".toList ∧
    (readIdentifier "RESPONSE_".toList "q1.a".toList).1 = (readIdentifier "RESPONSE_".toList "q1_a".toList).1 := by
  decide +kernel

/-- **C45 (guarded).**  Source identifiers that are legal names without dots (basic multilingual plane, without outer
spaces) are never confused. -/
theorem identifiers_distinct_partial (p q v w : Str) (hv : IsNCName v ∧ '.' ∉ v ∧ (∀ c ∈ v, c.toNat < 0x10000) ∧ strip v = v)
    (hw : IsNCName w ∧ '.' ∉ w ∧ (∀ c ∈ w, c.toNat < 0x10000) ∧ strip w = w)
    (h : (readIdentifier p v).1 = (readIdentifier q w).1) : v = w := by
  rw [legal_identifier_kept p v hv.1 hv.2.1 hv.2.2.1 hv.2.2.2,
    legal_identifier_kept q w hw.1 hw.2.1 hw.2.2.1 hw.2.2.2] at h
  exact h

/-! ## C46: views -/

/-- **C46 refuted.**  Each of the four source views that denote a proctor is turned into a view that does not exist
in the target format, and unknown views are passed through although the warning says they are ignored. -/
theorem view_not_legal :
    (∀ v ∈ ["Administrator", "AdminAuthority", "Invigilator", "Proctor"],
      readView v.toList = "invigilator".toList) ∧
    "invigilator".toList ∉ targetViews ∧
    readView "Parent".toList = "parent".toList ∧ "parent".toList ∉ targetViews := by
  decide +kernel

/-- **C46 (exact guard).**  The view recorded is legal (or `all`, which is dropped by the callers) exactly when the
source view, without outer spaces and case, is one of the following. -/
theorem view_legal_partial (v : Str) :
    (readView v = "all".toList ∨ readView v ∈ targetViews) ↔
      Py.lower (strip v) ∈ ["all", "assessor", "author", "candidate", "psychometrician", "tutor", "scorer"].map
        String.toList := by
  unfold readView
  dsimp only
  generalize hx : Py.lower (strip v) = x
  have hlow : x ≠ "testConstructor".toList := by
    intro e
    have : 'C' ∈ Py.lower (strip v) := by rw [hx, e]; decide
    obtain ⟨c, _, hc⟩ := List.mem_map.1 this
    unfold Py.lowerChar at hc
    split at hc
    · rename_i hr
      have hv : (c.toNat + 32).isValidChar := by left; omega
      rw [char_eq_iff, Char.ofNat, dif_pos hv] at hc
      have : (Char.ofNatAux (c.toNat + 32) hv).toNat = c.toNat + 32 := by
        rfl
      have : 'C'.toNat = 67 := rfl
      omega
    · rename_i hr
      apply hr
      rw [hc]
      decide
  by_cases ha : x = "all".toList
  · subst ha; decide
  · rw [if_pos ha]
    by_cases hm : ∃ p ∈ viewMap, p.1 = x
    · obtain ⟨p, hp, rfl⟩ := hm
      revert ha hlow
      clear hx
      revert p
      decide +kernel
    · have hn : viewMap.find? (fun p => decide (p.1 = x)) = none := by
        rw [List.find?_eq_none]
        intro p hp h
        exact hm ⟨p, hp, by simpa using h⟩
      rw [hn]
      dsimp only
      constructor
      · rintro (h | h)
        · exact absurd h ha
        · exfalso
          have : x ∈ targetViews → x = "proctor".toList ∨ x = "testConstructor".toList ∨ ∃ p ∈ viewMap, p.1 = x := by
            intro h
            simp only [targetViews, List.map_cons, List.map_nil, List.mem_cons, List.not_mem_nil, or_false] at h
            rcases h with h | h | h | h | h | h
            · exact Or.inr (Or.inr ⟨("author".toList, "author".toList), by decide, h.symm⟩)
            · exact Or.inr (Or.inr ⟨("candidate".toList, "candidate".toList), by decide, h.symm⟩)
            · exact Or.inl h
            · exact Or.inr (Or.inr ⟨("scorer".toList, "scorer".toList), by decide, h.symm⟩)
            · exact Or.inr (Or.inl h)
            · exact Or.inr (Or.inr ⟨("tutor".toList, "tutor".toList), by decide, h.symm⟩)
          rcases this h with h | h | h
          · exact hm ⟨("proctor".toList, "invigilator".toList), by decide, h.symm⟩
          · exact hlow h
          · exact hm h
      · intro h
        exfalso
        simp only [List.map_cons, List.map_nil, List.mem_cons, List.not_mem_nil, or_false] at h
        rcases h with h | h | h | h | h | h | h
        · exact ha h
        · exact hm ⟨("assessor".toList, "scorer".toList), by decide, h.symm⟩
        · exact hm ⟨("author".toList, "author".toList), by decide, h.symm⟩
        · exact hm ⟨("candidate".toList, "candidate".toList), by decide, h.symm⟩
        · exact hm ⟨("psychometrician".toList, "scorer".toList), by decide, h.symm⟩
        · exact hm ⟨("tutor".toList, "tutor".toList), by decide, h.symm⟩
        · exact hm ⟨("scorer".toList, "scorer".toList), by decide, h.symm⟩

/-! ## C26: warnings -/

/-- One line per warning. -/
def asLines (ws : List Str) : Str := ws.flatMap (fun w => w ++ ['\n'])

theorem filter_first {ws : List Str} (seen : List Str) : ∀ {a : Str}, a ∈ seen →
    (firstOccurrences ws).filter (· ∉ seen) = ((firstOccurrences ws).filter (· ≠ a)).filter (· ∉ seen) := by
  intro a ha
  rw [List.filter_filter]
  apply List.filter_congr
  intro x hx
  by_cases h : x ∈ seen
  · simp [h]
  · have : x ≠ a := fun e => h (e ▸ ha)
    simp [h, this]

theorem print_all (ws : List (Str × Bool)) : ∀ l : WarnLog,
    (ws.foldl WarnLog.print l).msg = l.msg ++ asLines ((firstOccurrences (ws.map (·.1))).filter (· ∉ l.warnings)) ∧
    (ws.foldl WarnLog.print l).forwarded = l.forwarded ++ (ws.filter (·.2)).map (·.1) := by
  induction ws with
  | nil => intro l; simp [firstOccurrences, asLines]
  | cons w ws ih =>
    intro l
    obtain ⟨w, f⟩ := w
    rw [List.foldl_cons]
    have h := ih (l.print (w, f))
    rw [h.1, h.2]
    rw [List.map_cons, firstOccurrences]
    by_cases hw : w ∈ l.warnings
    · have hm : (l.print (w, f)).msg = l.msg := by simp only [WarnLog.print, hw, if_true]; split <;> rfl
      have hk : (l.print (w, f)).warnings = l.warnings := by simp only [WarnLog.print, hw, if_true]; split <;> rfl
      have hf : (l.print (w, f)).forwarded = l.forwarded ++ if f then [w] else [] := by
        simp only [WarnLog.print, hw, if_true]; split <;> simp
      rw [hm, hk, hf]
      constructor
      · rw [List.filter_cons, if_neg (by simpa using hw), filter_first l.warnings hw]
      · cases f <;> simp
    · have hm : (l.print (w, f)).msg = l.msg ++ w ++ ['\n'] := by
        simp only [WarnLog.print, hw, if_false]; split <;> rfl
      have hk : (l.print (w, f)).warnings = l.warnings ++ [w] := by
        simp only [WarnLog.print, hw, if_false]; split <;> rfl
      have hf : (l.print (w, f)).forwarded = l.forwarded ++ if f then [w] else [] := by
        simp only [WarnLog.print, hw, if_false]; split <;> simp
      rw [hm, hk, hf]
      constructor
      · rw [List.filter_cons, if_pos (by simpa using hw), List.filter_filter]
        simp only [asLines, List.flatMap_cons, List.append_assoc]
        congr 3
        congr 1
        apply List.filter_congr
        intro x hx
        by_cases h1 : x ∈ l.warnings <;> by_cases h2 : x = w <;> simp [h1, h2]
      · cases f <;> simp

/-- **C26.**  After any sequence of warnings (forced or not) the message text of the item consists of one line per
distinct warning in order of first occurrence, and exactly the forced ones have been passed on, every time. -/
theorem warnings_once (ws : List (Str × Bool)) :
    (ws.foldl WarnLog.print {}).msg = asLines (firstOccurrences (ws.map (·.1))) ∧
    (ws.foldl WarnLog.print {}).forwarded = (ws.filter (·.2)).map (·.1) := by
  have h := print_all ws {}
  refine ⟨?_, ?_⟩
  · rw [h.1]
    simp only [List.nil_append]
    congr 1
    apply List.filter_eq_self.2
    intro a ha
    simp
  · rw [h.2]; simp

theorem mem_firstOccurrences {α} [DecidableEq α] (l : List α) (a : α) : a ∈ firstOccurrences l ↔ a ∈ l := by
  induction l with
  | nil => simp [firstOccurrences]
  | cons b l ih =>
    simp only [firstOccurrences, List.mem_cons, List.mem_filter, ih]
    by_cases h : a = b <;> simp [h]

/-- The specification list has no repetitions and the same entries. -/
theorem firstOccurrences_nodup {α} [DecidableEq α] (l : List α) : (firstOccurrences l).Nodup := by
  induction l with
  | nil => simp [firstOccurrences]
  | cons b l ih =>
    simp only [firstOccurrences, List.nodup_cons]
    exact ⟨by simp, ih.filter _⟩

example : ([("a".toList, false), ("b".toList, true), ("a".toList, true)].foldl WarnLog.print {}).msg =
    "a\nb\n".toList := by decide +kernel

end Verif.Props
