import Verif.Lemmas.XmlUtils

/-! # Properties of escaping, tokenizing and path segments (C01–C05, C22) -/

namespace Verif.Props

open Verif Verif.Py Verif.XmlUtils

/-- **C01.** Escaped text is read back by the tool's tokenizer as exactly the original text, with no
tags, for every string. -/
theorem escaped_text_reads_back (s : Str) :
    tokenize (xmlString s) = .ok (if s = [] then [] else [.text s]) := by
  have h := tokLoop_xmlString s [] [] []
  simp only [List.append_nil, List.nil_append] at h
  unfold tokenize
  rw [h, tokLoop, flush]
  split <;> simp

example : tokenize (xmlString "a<b & \"c\" &amp; é".toList) = .ok [.text "a<b & \"c\" &amp; é".toList] :=
  escaped_text_reads_back _
example : xmlString "<é&".toList = "&lt;&#233;&amp;".toList := by decide +kernel

/-- **C01 (in context).** The escaped text keeps its meaning in front of any further markup: the
tokenizer arrives at the following markup having collected exactly the original characters. -/
theorem escaped_text_before_markup (s rest : Str) :
    tokenize (xmlString s ++ '<' :: rest) = tokLoop s [] ('<' :: rest) := by
  have h := tokLoop_xmlString s [] [] ('<' :: rest)
  simpa [tokenize] using h

/-- **C02, partial.** An escaped value between double quotes is read back exactly iff it contains no
double quote: the guard is exact, so the unrestricted property fails for every value with a quote. -/
theorem attribute_value_reads_back_iff_partial (s rest : Str) :
    parseAttValue ('"' :: (xmlString s ++ '"' :: rest)) = .ok (s, rest) ↔ '"' ∉ s := by
  constructor
  · intro h hq
    obtain ⟨a, b, rfl, ha⟩ := List.append_of_mem hq |>.elim fun a ⟨b, e⟩ => by
      -- take the first quote
      have : ∀ s : Str, '"' ∈ s → ∃ a b, s = a ++ '"' :: b ∧ '"' ∉ a := by
        intro s
        induction s with
        | nil => intro h; cases h
        | cons c t ih =>
          intro h
          by_cases hc : c = '"'
          · exact ⟨[], t, by simp [hc], by simp⟩
          · have ht : '"' ∈ t := by
              rcases List.mem_cons.1 h with e | e
              · exact absurd e.symm hc
              · exact e
            obtain ⟨a, b, e, hn⟩ := ih ht
            exact ⟨c :: a, b, by simp [e], by simp [hn]; exact fun e => hc e.symm⟩
      obtain ⟨a', b', e', h'⟩ := this s hq
      exact (⟨a', b', e', h'⟩ : ∃ a b, s = a ++ '"' :: b ∧ '"' ∉ a)
    have hx : xmlString (a ++ '"' :: b) = xmlString a ++ '"' :: xmlString b := by
      simp [xmlString, xmlChar]
    rw [hx] at h
    simp only [parseAttValue, parseChar, if_true] at h
    rw [List.append_assoc, attValueLoop_xmlString '"' a [] _ (by decide) ha] at h
    rw [List.cons_append, attValueLoop] at h
    simp at h
  · intro h
    simp only [parseAttValue, parseChar, if_true]
    rw [attValueLoop_xmlString '"' s [] _ (by decide) h, attValueLoop]
    simp

example : '"' ∉ "a<b'c".toList := by decide

/-- **C02 is refuted**: this value ends its attribute early and the rest is read as markup. -/
theorem attribute_value_breaks_out :
    ∃ s v rest : Str, v ≠ s ∧
      parseAttValue ('"' :: (xmlString s ++ ['"'])) = .ok (v, rest) ∧ rest ≠ [] :=
  ⟨"x\" y=\"z".toList, "x".toList, " y=\"z\"".toList, by decide, by decide +kernel, by decide⟩

/-- **C03, partial.** Escaped text is 7-bit iff the original has no U+0080. -/
theorem escaped_text_ascii_iff_partial (s : Str) :
    (∀ d ∈ xmlString s, d.toNat < 128) ↔ Char.ofNat 128 ∉ s := by
  have one : ∀ c : Char, (∀ d ∈ xmlChar c, d.toNat < 128) ↔ c ≠ Char.ofNat 128 := by
    intro c
    unfold xmlChar
    split
    · rename_i h; subst h; decide
    · split
      · rename_i h; subst h; decide
      · split
        · rename_i h; subst h; decide
        · split
          · rename_i h
            constructor
            · intro _ e; subst e; exact absurd h (by decide)
            · intro _ d hd
              simp at hd
              rcases hd with e | e | e | e
              · subst e; decide
              · subst e; decide
              · have := List.all_eq_true.1 (strNat_all c.toNat) d e
                simp [isDigit] at this
                omega
              · subst e; decide
          · rename_i h
            constructor
            · intro hd e; subst e; exact absurd (hd (Char.ofNat 128) (by simp)) (by decide)
            · intro hne d hd
              simp at hd; subst hd
              have : d.toNat ≠ 128 := by
                intro e; apply hne; rw [← e]; exact (Char.ofNat_toNat d).symm
              omega
  constructor
  · intro h hm
    refine (one (Char.ofNat 128)).1 (fun d hd => h d ?_) rfl
    simp only [xmlString, List.mem_flatMap]
    exact ⟨_, hm, hd⟩
  · intro h d hd
    simp only [xmlString, List.mem_flatMap] at hd
    obtain ⟨c, hc, hd⟩ := hd
    exact (one c).2 (fun e => h (e ▸ hc)) d hd

/-- **C03 is refuted** at U+0080, which is passed through unescaped. -/
theorem escaped_text_not_ascii : ∃ s : Str, ∃ d ∈ xmlString s, 128 ≤ d.toNat :=
  ⟨[Char.ofNat 128], Char.ofNat 128, by decide, by decide⟩

/-- XML's own condition on the body of a comment (between `<!--` and `-->`). -/
def WellFormedCommentBody (body : Str) : Prop :=
  ¬ (['-', '-'] <:+: body) ∧ body.getLast? ≠ some '-'

/-- The comment body written for an item whose accumulated message is `msg`
(imsqtiv1.py:788-790: `'<!--\n'`, `EncodeComment(self.msg)`, `'\t-->\n\n'`). -/
def itemCommentBody (msg : Str) : Str := '\n' :: (encodeComment msg ++ ['\t'])

/-- **C04.** Whatever the messages are, the comment written into an item is well formed. -/
theorem item_comment_well_formed (msg : Str) : WellFormedCommentBody (itemCommentBody msg) := by
  unfold itemCommentBody WellFormedCommentBody
  constructor
  · intro h
    rw [List.infix_cons_iff] at h
    rcases h with h | h
    · obtain ⟨w, hw⟩ := h
      simp at hw
    · refine noDD_append _ _ (encodeComment_noDD msg) ?_ ?_ h
      · intro h; exact absurd h.length_le (by decide)
      · intro u; simp
  · simp [List.getLast?_cons]

example : encodeComment "a---b--".toList = "a- - -b- - ".toList := by decide

/-- **C05.** Decoding an encoded file name gives the name back, for every name over 8-bit
characters. -/
theorem path_segment_round_trip (s : Str) (h : ∀ c ∈ s, c.toNat ≤ 255) :
    decodePathSegment (encodePathSegment s) = s := by
  have key : ∀ s : Str, (∀ c ∈ s, c.toNat ≤ 255) → ∀ out,
      (encodePathSegment s).foldl decodeStep (out, none) = (out ++ s, none) := by
    intro s
    induction s with
    | nil => intro _ out; simp [encodePathSegment]
    | cons c t ih =>
      intro h out
      have he : encodePathSegment (c :: t) = encodeSegChar c ++ encodePathSegment t := by
        simp [encodePathSegment]
      rw [he, List.foldl_append, decode_encodeSegChar c (h c (by simp)),
        ih (fun d hd => h d (by simp [hd]))]
      simp
  unfold decodePathSegment
  rw [key s h []]
  simp

example : encodePathSegment "my file/é%41.png".toList = "my%20file%2f%e9%2541.png".toList := by
  decide +kernel
example : ∀ c ∈ "my file/é%41.png".toList, c.toNat ≤ 255 := by decide +kernel

/-- **C05.** The encoded name is a single path segment: it contains no slash, no hash, no space and
no other character that would end or split the segment; `?` only stands for characters above 255. -/
theorem path_segment_safe (s : Str) :
    (∀ d ∈ encodePathSegment s, isPchar d = true ∨ d = '%' ∨ d = '?') ∧
    ('/' ∉ encodePathSegment s) ∧ ('#' ∉ encodePathSegment s) ∧ (' ' ∉ encodePathSegment s) ∧
    ((∀ c ∈ s, c.toNat ≤ 255) → '?' ∉ encodePathSegment s) := by
  have h1 : ∀ d ∈ encodePathSegment s, isPchar d = true ∨ d = '%' ∨ d = '?' := by
    intro d hd
    simp only [encodePathSegment, List.mem_flatMap] at hd
    obtain ⟨c, _, hd⟩ := hd
    exact encodeSegChar_safe c d hd
  refine ⟨h1, fun h => ?_, fun h => ?_, fun h => ?_, fun hs h => ?_⟩
  · exact absurd (h1 _ h) (by decide)
  · exact absurd (h1 _ h) (by decide)
  · exact absurd (h1 _ h) (by decide)
  · simp only [encodePathSegment, List.mem_flatMap] at h
    obtain ⟨c, hc, hd⟩ := h
    have hle := hs c hc
    revert hd
    unfold encodeSegChar
    split
    · rename_i hp
      intro hd; simp at hd; subst hd; exact absurd hp (by decide)
    · rw [if_neg (by omega)]
      have key : ∀ n : Fin 16, '?' ≠ hexDigitChar n.val := by decide
      intro hd
      simp at hd
      rcases hd with h | h
      · exact key ⟨c.toNat / 16, by omega⟩ h
      · exact key ⟨c.toNat % 16, by omega⟩ h

/-- A malformed escape loses the character after it: `DecodePathSegment` is not the identity on
text without well-formed escapes. -/
theorem decode_malformed_escape_loses_char :
    decodePathSegment "100%zed".toList = "100%ed".toList := by decide +kernel

/-- **C22.** Text without `<` and `&` is one verbatim text token. -/
theorem plain_text_verbatim (s : Str) (h : ∀ c ∈ s, c ≠ '<' ∧ c ≠ '&') :
    tokenize s = .ok (if s = [] then [] else [.text s]) := by
  have key : ∀ s : Str, (∀ c ∈ s, c ≠ '<' ∧ c ≠ '&') → ∀ chars toks,
      tokLoop chars toks s = .ok (flush (chars ++ s) toks) := by
    intro s
    induction s with
    | nil => intro _ chars toks; simp [tokLoop]
    | cons c t ih =>
      intro h chars toks
      have hc := h c (by simp)
      rw [tokLoop, if_neg hc.1, if_neg hc.2, ih (fun d hd => h d (by simp [hd]))]
      simp
  unfold tokenize
  rw [key s h]
  simp only [List.nil_append, flush]

example : ∀ c ∈ "x > y; \"quoted\"".toList, c ≠ '<' ∧ c ≠ '&' := by decide

/-- **C22.** The number of tokens is bounded by the length of the input, for every input that is
accepted: the tokenizer always makes progress. -/
theorem tokenizer_progress (s : Str) (toks : List Token) (h : tokenize s = .ok toks) :
    toks.length ≤ s.length := by
  have key : ∀ (chars : Str) (acc : List Token) (inp : Str) (out : List Token),
      tokLoop chars acc inp = .ok out →
      out.length ≤ acc.length + (if chars = [] then 0 else 1) + inp.length := by
    intro chars acc inp
    have flush_len : ∀ chars acc, (flush chars acc).length = acc.length + (if chars = [] then 0 else 1) := by
      intro chars acc; unfold flush; split <;> simp
    fun_induction tokLoop chars acc inp with
    | case1 chars acc =>
      intro out h; injection h with h; subst h
      rw [flush_len]; simp
    | case2 chars acc t u hp tag v hq ih =>
      intro out h
      have := ih out h
      have l1 := parseChar_lt hp
      have l2 := parseETag_le hq
      simp only [List.length_append, flush_len, List.length_cons, List.length_nil, if_true] at this ⊢
      generalize (if chars = [] then 0 else 1) = k at this ⊢
      omega
    | case3 => intro out h; cases h
    | case4 chars acc t hp tag v hq ih =>
      intro out h
      have := ih out h
      have l2 := parseTag_le hq
      simp only [List.length_append, flush_len, List.length_cons, List.length_nil, if_true] at this ⊢
      generalize (if chars = [] then 0 else 1) = k at this ⊢
      omega
    | case5 => intro out h; cases h
    | case6 chars acc t v u hq hne ih =>
      intro out h
      have := ih out h
      have l2 := parseReference_le hq
      simp at this ⊢
      omega
    | case7 => intro out h; cases h
    | case8 chars acc c t h1 h2 ih =>
      intro out h
      have := ih out h
      simp at this ⊢
      omega
  have := key [] [] s toks h
  simpa using this

example : tokenize "a<b x='1'>c</b>".toList =
    .ok [.text "a".toList, .stag "b".toList [("x".toList, "1".toList)], .text "c".toList, .etag "b".toList] := by
  decide +kernel

/-- **C22 is refuted as far as error reporting goes**: a malformed character reference escapes as a
plain `ValueError`, which the callers (imsqtiv1.py:1928, 2051: `except XMLException`) do not catch. -/
theorem tokenizer_uncaught_error : tokenize "AT&#T".toList = .error .valueError := by decide +kernel

end Verif.Props
