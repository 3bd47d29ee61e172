import Verif.Model.XmlUtils

/-! Lemmas about xmlutils.py used by the property theorems. -/

set_option linter.unusedVariables false

namespace Verif.XmlUtils

open Verif Verif.Py

theorem digitChar_isDigit (n : Nat) : isDigit (digitChar n) = true := by
  have h : n % 10 < 10 := Nat.mod_lt _ (by decide)
  unfold digitChar
  generalize n % 10 = m at h
  have : ∀ m : Fin 10, isDigit (Char.ofNat (48 + m.val)) = true := by decide
  exact this ⟨m, h⟩

theorem digitChar_val (n : Nat) : hexVal (digitChar n) = n % 10 := by
  have h : n % 10 < 10 := Nat.mod_lt _ (by decide)
  unfold digitChar
  generalize n % 10 = m at h
  have : ∀ m : Fin 10, hexVal (Char.ofNat (48 + m.val)) = m.val := by decide
  exact this ⟨m, h⟩

theorem strNat_all (n : Nat) : (strNat n).all isDigit = true := by
  fun_induction strNat n with
  | case1 n h => simp [digitChar_isDigit]
  | case2 n h ih => simp [ih, digitChar_isDigit]

theorem strNat_ne_nil (n : Nat) : strNat n ≠ [] := by
  fun_induction strNat n <;> simp

theorem strNat_val (n : Nat) : digitsVal 10 (strNat n) = n := by
  fun_induction strNat n with
  | case1 n h => simp [digitsVal, digitChar_val]; omega
  | case2 n h ih =>
    unfold digitsVal at *
    rw [List.foldl_append, ih]
    simp [digitChar_val]; omega

theorem strNat_head_ne_minus (n : Nat) (t : Str) : strNat n ≠ '-' :: t := by
  intro h
  have := strNat_all n
  rw [h] at this
  simp [isDigit] at this

/-- `int(str(n)) == n`. -/
theorem intOfStr_strNat (n : Nat) : intOfStr (strNat n) = .ok (n : Int) := by
  unfold intOfStr
  split
  · rename_i t h; exact absurd h (strNat_head_ne_minus n t)
  · rw [if_pos ⟨strNat_ne_nil n, strNat_all n⟩, strNat_val]

theorem isDigit_cases {c : Char} (h : isDigit c = true) :
    isSchar c = false ∧ c ∉ ['<', '>', '/', ';', '='] ∧ isNmtokenChar c = true ∧ c ≠ 'x' := by
  have hr : 48 ≤ c.toNat ∧ c.toNat ≤ 57 := by simpa [isDigit] using h
  refine ⟨?_, ?_, ?_, ?_⟩
  · simp [isSchar]; omega
  · intro hm
    simp at hm
    rcases hm with h | h | h | h | h <;> subst h <;> simp at hr
  · simp [isNmtokenChar, h]
  · intro hx; subst hx; simp at hr

theorem parseName_digits (ds rest : Str) (h : ds.all isDigit = true) :
    parseName true (ds ++ ';' :: rest) = (ds, ';' :: rest) := by
  induction ds with
  | nil => simp [parseName, isSchar]
  | cons d t ih =>
    simp at h
    obtain ⟨h1, h2, h3, _⟩ := isDigit_cases h.1
    simp only [List.cons_append, parseName, h1, h2, h3]
    have := ih (by simpa using h.2)
    simp [this]

theorem parseReference_num (n : Nat) (rest : Str) :
    parseReference ('#' :: (strNat n ++ ';' :: rest)) =
      (match unichr n with | .ok c => .ok (c, rest) | .error e => .error e) := by
  have hx : parseChar 'x' (strNat n ++ ';' :: rest) = none := by
    cases hs : strNat n with
    | nil => exact absurd hs (strNat_ne_nil n)
    | cons d t =>
      have hd := strNat_all n
      rw [hs] at hd
      simp at hd
      have := (isDigit_cases hd.1).2.2.2
      simp [parseChar, this]
  unfold parseReference
  have h1 : parseChar '#' ('#' :: (strNat n ++ ';' :: rest)) = some (strNat n ++ ';' :: rest) := by
    simp [parseChar]
  have h2 : dropSemi (';' :: rest) = rest := by simp [dropSemi, parseChar]
  simp only [h1, hx, parseName_digits _ _ (strNat_all n), intOfStr_strNat, h2]
  cases unichr n <;> rfl

theorem parseReference_amp (rest : Str) : parseReference ("amp;".toList ++ rest) = .ok ('&', rest) := by
  simp [parseReference, parseChar, parseName, isSchar, isNmstartChar, isNmtokenChar, isLetter, entity,
    lower, lowerChar, dropSemi]

theorem parseReference_lt (rest : Str) : parseReference ("lt;".toList ++ rest) = .ok ('<', rest) := by
  simp [parseReference, parseChar, parseName, isSchar, isNmstartChar, isNmtokenChar, isLetter, entity,
    lower, lowerChar, dropSemi]

theorem parseReference_gt (rest : Str) : parseReference ("gt;".toList ++ rest) = .ok ('>', rest) := by
  simp [parseReference, parseChar, parseName, isSchar, isNmstartChar, isNmtokenChar, isLetter, entity,
    lower, lowerChar, dropSemi]

theorem unichr_ord (c : Char) : unichr (c.toNat : Int) = .ok c := by
  have hv := c.valid
  have hr : c.toNat < 0xD800 ∨ (0xDFFF < c.toNat ∧ c.toNat < 0x110000) := hv
  unfold unichr
  rw [if_neg (by omega), if_neg (by omega)]
  congr 1
  exact Char.ofNat_toNat c

/-- What every escaped character is: itself (when not markup), or an `&…;` reference that
`ParseReference` reads back as that character. -/
theorem xmlChar_cases (c : Char) :
    (xmlChar c = [c] ∧ c ≠ '<' ∧ c ≠ '&') ∨
    (∃ body, xmlChar c = '&' :: body ∧ (∀ rest, parseReference (body ++ rest) = .ok (c, rest))) := by
  unfold xmlChar
  split
  · rename_i h; subst h
    exact .inr ⟨"amp;".toList, rfl, parseReference_amp⟩
  · split
    · rename_i h; subst h
      exact .inr ⟨"lt;".toList, rfl, parseReference_lt⟩
    · split
      · rename_i h; subst h
        exact .inr ⟨"gt;".toList, rfl, parseReference_gt⟩
      · split
        · refine .inr ⟨'#' :: (strNat c.toNat ++ [';']), by simp, fun rest => ?_⟩
          have := parseReference_num c.toNat rest
          simp only [unichr_ord] at this
          simpa using this
        · exact .inl ⟨rfl, by assumption, by assumption⟩

theorem tokLoop_xmlChar (c : Char) (chars : Str) (toks : List Token) (rest : Str) :
    tokLoop chars toks (xmlChar c ++ rest) = tokLoop (chars ++ [c]) toks rest := by
  rcases xmlChar_cases c with ⟨h, h1, h2⟩ | ⟨body, h, hp⟩
  · rw [h, List.cons_append, tokLoop]
    simp [h1, h2]
  · rw [h, List.cons_append, tokLoop]
    rw [if_neg (by decide), if_pos rfl]
    have hr := hp rest
    split
    · rename_i v u h'
      rw [hr] at h'
      injection h' with h'; injection h' with h1 h2; subst h1; subst h2; rfl
    · rename_i e h'
      rw [hr] at h'; cases h'

theorem tokLoop_xmlString (s : Str) (chars : Str) (toks : List Token) (rest : Str) :
    tokLoop chars toks (xmlString s ++ rest) = tokLoop (chars ++ s) toks rest := by
  induction s generalizing chars with
  | nil => simp [xmlString]
  | cons c t ih =>
    have : xmlString (c :: t) = xmlChar c ++ xmlString t := by simp [xmlString]
    rw [this, List.append_assoc, tokLoop_xmlChar, ih]
    simp

theorem attValueLoop_xmlChar (delim c : Char) (acc rest : Str) (hd : delim ≠ '&') (hc : c ≠ delim) :
    attValueLoop delim acc (xmlChar c ++ rest) = attValueLoop delim (acc ++ [c]) rest := by
  rcases xmlChar_cases c with ⟨h, h1, h2⟩ | ⟨body, h, hp⟩
  · rw [h, List.cons_append, attValueLoop]
    simp [hc, h2]
  · rw [h, List.cons_append, attValueLoop]
    rw [if_neg (fun e => hd e.symm), if_pos rfl]
    have hr := hp rest
    split
    · rename_i v u h'
      rw [hr] at h'
      injection h' with h'; injection h' with h1 h2; subst h1; subst h2; rfl
    · rename_i e h'
      rw [hr] at h'; cases h'

theorem attValueLoop_xmlString (delim : Char) (s acc rest : Str) (hd : delim ≠ '&') (hs : delim ∉ s) :
    attValueLoop delim acc (xmlString s ++ rest) = attValueLoop delim (acc ++ s) rest := by
  induction s generalizing acc with
  | nil => simp [xmlString]
  | cons c t ih =>
    have : xmlString (c :: t) = xmlChar c ++ xmlString t := by simp [xmlString]
    simp at hs
    rw [this, List.append_assoc, attValueLoop_xmlChar _ _ _ _ hd (fun e => hs.1 e.symm), ih _ hs.2]
    simp

/-- The decoding of one encoded character, whatever was decoded before it. -/
theorem decode_encodeSegChar (c : Char) (h : c.toNat ≤ 255) (out : Str) :
    (encodeSegChar c).foldl decodeStep (out, none) = (out ++ [c], none) := by
  have key : ∀ n : Fin 256, isPchar (Char.ofNat n.val) = false →
      (isHex (hexDigitChar (n.val / 16)) = true ∧ isHex (hexDigitChar (n.val % 16)) = true ∧
        hexDigitChar (n.val / 16) ≠ '%' ∧ hexDigitChar (n.val % 16) ≠ '%' ∧
        digitsVal 16 [hexDigitChar (n.val / 16), hexDigitChar (n.val % 16)] = n.val) := by
    decide +kernel
  unfold encodeSegChar
  split
  · rename_i hp
    have : c ≠ '%' := by intro e; subst e; exact absurd hp (by decide)
    simp [decodeStep, this]
  · rename_i hp
    rw [if_neg (by omega)]
    have k := key ⟨c.toNat, by omega⟩
    simp only [Char.ofNat_toNat] at k
    obtain ⟨k1, k2, k3, k4, k5⟩ := k (by simpa using hp)
    simp [decodeStep, k1, k2, k3, k4, k5]

theorem encodeSegChar_safe (c : Char) :
    ∀ d ∈ encodeSegChar c, isPchar d = true ∨ d = '%' ∨ d = '?' := by
  have key : ∀ n : Fin 16, isPchar (hexDigitChar n.val) = true := by decide
  unfold encodeSegChar
  split
  · intro d hd; simp at hd; subst hd; left; assumption
  · split
    · intro d hd; simp at hd; subst hd; right; right; rfl
    · intro d hd
      rename_i h1 h2
      simp at hd
      rcases hd with h | h | h
      · right; left; exact h
      · left; subst h; exact key ⟨c.toNat / 16, by omega⟩
      · left; subst h; exact key ⟨c.toNat % 16, by omega⟩

theorem encodeComment_head (s u : Str) (h : encodeComment s = '-' :: u) : ∃ v, s = '-' :: v := by
  cases s with
  | nil => simp [encodeComment] at h
  | cons c t =>
    by_cases hc : c = '-'
    · exact ⟨t, by rw [hc]⟩
    · rw [encodeComment] at h
      · injection h with h _; exact absurd h hc
      · intro t' e; exact absurd e hc

theorem encodeComment_noDD (s : Str) : ¬ (['-', '-'] <:+: encodeComment s) := by
  fun_induction encodeComment s with
  | case1 t ih =>
    intro h
    simp [List.infix_cons_iff] at h
    exact ih h
  | case2 c t h ih =>
    intro hi
    rw [List.infix_cons_iff] at hi
    rcases hi with hp | hi
    · obtain ⟨w, hw⟩ := hp
      simp at hw
      obtain ⟨v, hv⟩ := encodeComment_head t w hw.2.symm
      exact h v hw.1.symm hv
    · exact ih hi
  | case3 => simp

/-- Appending something that does not start with a hyphen, or prepending a non-hyphen, creates no
double hyphen. -/
theorem noDD_append (s t : Str) (hs : ¬ (['-', '-'] <:+: s)) (ht : ¬ (['-', '-'] <:+: t))
    (hb : ∀ u, t ≠ '-' :: u) : ¬ (['-', '-'] <:+: s ++ t) := by
  induction s with
  | nil => simpa using ht
  | cons c s ih =>
    intro h
    rw [List.cons_append, List.infix_cons_iff] at h
    rcases h with h | h
    · obtain ⟨w, hw⟩ := h
      simp at hw
      cases s with
      | nil => simp at hw; exact hb w hw.2.symm
      | cons d s' =>
        simp at hw
        apply hs
        rw [← hw.1, ← hw.2.1]
        exact ⟨[], s', rfl⟩
    · exact ih (fun hi => hs (List.infix_cons_iff.2 (.inr hi))) h

end Verif.XmlUtils
