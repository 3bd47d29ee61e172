import Verif.Spec.OData
import Verif.Lemmas.ODataLen

/-!
# Reading literals (lemmas)
-/

namespace Verif.OData

open Verif Verif.Spec.OData

/-- What may follow a token. -/
def Sep (rest : Str) : Prop := ∀ c t, rest = c :: t → c = ' ' ∨ c = '\t' ∨ c = ')' ∨ c = ',' ∨ c = '/'

/-- The text does not begin with a character of the class. -/
def NoHead (p : Char → Bool) (rest : Str) : Prop := ∀ c t, rest = c :: t → p c = false

theorem Sep.noHead {rest : Str} (h : Sep rest) {p : Char → Bool} (h1 : p ' ' = false) (h2 : p '\t' = false)
    (h3 : p ')' = false) (h4 : p ',' = false) (h5 : p '/' = false) : NoHead p rest := by
  intro c t hr
  rcases h c t hr with rfl | rfl | rfl | rfl | rfl <;> assumption

theorem noHead_cons {p : Char → Bool} {c : Char} {t : Str} (h : p c = false) : NoHead p (c :: t) := by
  intro d u hd
  injection hd with h1 h2
  rw [← h1]; exact h

theorem noHead_nil {p : Char → Bool} : NoHead p [] := by intro d u hd; cases hd

theorem noHead_append {p : Char → Bool} {s t : Str} (hs : s ≠ []) (h : ∀ c ∈ s, p c = false) : NoHead p (s ++ t) := by
  cases s with
  | nil => exact absurd rfl hs
  | cons c s => exact noHead_cons (h c (by simp))

theorem takeWhile_all {p : Char → Bool} : ∀ {d rest : Str}, (∀ c ∈ d, p c = true) → NoHead p rest →
    (d ++ rest).takeWhile p = d ∧ (d ++ rest).dropWhile p = rest
  | [], rest, _, hr => by
    cases rest with
    | nil => exact ⟨rfl, rfl⟩
    | cons c t => simp [hr c t rfl]
  | c :: d, rest, hd, hr => by
    have := takeWhile_all (d := d) (rest := rest) (fun x hx => hd x (by simp [hx])) hr
    simp [hd c (by simp), this]

theorem upTo_all {p : Char → Bool} : ∀ {k : Nat} {d rest : Str}, (∀ c ∈ d, p c = true) → d.length ≤ k →
    (d.length < k → NoHead p rest) → upTo p k (d ++ rest) = (d, rest)
  | 0, [], rest, _, _, _ => by simp [upTo]
  | 0, _ :: _, _, _, h, _ => by simp at h
  | k + 1, [], rest, _, _, hr => by
    cases rest with
    | nil => simp [upTo]
    | cons c t => simp [upTo, hr (by simp) c t rfl]
  | k + 1, c :: d, rest, hd, hk, hr => by
    have := upTo_all (k := k) (d := d) (rest := rest) (fun x hx => hd x (by simp [hx])) (by simpa using hk)
      (fun h => hr (by simpa using h))
    simp [upTo, hd c (by simp), this]

theorem exactly_all {p : Char → Bool} {k : Nat} {d rest : Str} (hd : ∀ c ∈ d, p c = true) (hk : d.length = k) :
    exactly p k (d ++ rest) = some (d, rest) := by
  unfold exactly
  rw [upTo_all hd (by omega) (by omega), if_pos hk]

theorem parseChar_self (c : Char) (t : Str) : parseChar c (c :: t) = some t := by simp [parseChar]

theorem parseChar_none {c : Char} {s : Str} (h : NoHead (· == c) s) : parseChar c s = none := by
  cases s with
  | nil => rfl
  | cons d t => simp [parseChar, by simpa using h d t rfl]

theorem parseInteger_two {lo hi : Nat} {d rest : Str} (hd : Digits d) (hl : d.length ≤ 2) (hr : NoHead Py.isDigit rest)
    (h1 : lo ≤ Py.digitsVal 10 d) (h2 : Py.digitsVal 10 d ≤ hi) :
    parseInteger lo hi (some 2) (d ++ rest) = some (Py.digitsVal 10 d, rest) := by
  unfold parseInteger
  dsimp only
  simp only [upTo_all hd.2 hl (fun _ => hr), hd.1, if_false]
  rw [if_neg (by omega)]

theorem parseInteger_any {lo hi : Nat} {d rest : Str} (hd : Digits d) (hr : NoHead Py.isDigit rest)
    (h1 : lo ≤ Py.digitsVal 10 d) (h2 : Py.digitsVal 10 d ≤ hi) :
    parseInteger lo hi none (d ++ rest) = some (Py.digitsVal 10 d, rest) := by
  unfold parseInteger parseDigits
  dsimp only
  rw [(takeWhile_all hd.2 hr).1, (takeWhile_all hd.2 hr).2]
  simp only [hd.1, if_false]
  rw [if_neg (by omega)]

/-! ## Names -/

theorem Ident.ne {T : Tables} {n : Str} (h : Ident T n) : ∃ c t, n = c :: t ∧ T.start c = true := by
  cases h with
  | one h _ => exact ⟨_, _, rfl, h⟩
  | dotted h _ _ => exact ⟨_, _, rfl, h⟩

theorem segment_read {T : Tables} : ∀ {t rest : Str}, (∀ d ∈ t, T.more d = true) →
    identLoop T false (t ++ rest) = (identLoop T false rest).map fun r => (t ++ r.1, r.2)
  | [], rest, _ => by cases h : identLoop T false rest <;> simp [h]
  | c :: t, rest, h => by
    rw [List.cons_append, identLoop, if_pos (h c (by simp)), segment_read (fun d hd => h d (by simp [hd]))]
    cases identLoop T false rest <;> simp

theorem identLoop_stop {T : Tables} {rest : Str} (h1 : NoHead T.more rest) (h2 : NoHead (· == '.') rest) :
    identLoop T false rest = some ([], rest) := by
  cases rest with
  | nil => rfl
  | cons c t =>
    rw [identLoop, if_neg (by simp [h1 c t rfl]), if_neg (by simpa using h2 c t rfl)]

theorem more_ascii_false {T : Tables} {c : Char} (h : c.toNat < 128)
    (h2 : (Py.isLetter c || Py.isDigit c || c == '_') = false) : T.more c = false := by rw [T.more_ascii c h, h2]

theorem start_ascii_false {T : Tables} {c : Char} (h : c.toNat < 128) (h2 : Py.isLetter c = false) : T.start c = false := by
  rw [T.start_ascii c h, h2]

theorem dot_not_more (T : Tables) : T.more '.' = false := more_ascii_false (by decide) (by decide)

theorem ident_read {T : Tables} {n rest : Str} (hn : Ident T n) (h1 : NoHead T.more rest) (h2 : NoHead (· == '.') rest) :
    simpleIdentifier T (n ++ rest) = some (n, rest) := by
  unfold simpleIdentifier
  induction hn with
  | one hc ht =>
    rw [List.cons_append, identLoop, if_pos hc, segment_read ht, identLoop_stop h1 h2]
    simp
  | dotted hc ht _ ih =>
    rw [List.cons_append, identLoop, if_pos hc, List.append_assoc, segment_read ht, List.cons_append, identLoop,
      if_neg (by simp [dot_not_more T]), if_pos rfl, ih]
    simp

theorem letters_ident {T : Tables} {n : Str} (h0 : n ≠ []) (h : ∀ c ∈ n, Py.isLetter c = true) : Ident T n := by
  have ascii : ∀ c, Py.isLetter c = true → c.toNat < 128 := by
    intro c hc
    simp only [Py.isLetter, Bool.or_eq_true, Bool.and_eq_true, decide_eq_true_eq] at hc
    omega
  cases n with
  | nil => exact absurd rfl h0
  | cons c t =>
    refine .one (by rw [T.start_ascii c (ascii c (h c (by simp)))]; exact h c (by simp)) (fun d hd => ?_)
    have := h d (by simp [hd])
    rw [T.more_ascii d (ascii d this), this]; rfl

theorem toNat_ofNat {n : Nat} (h : n < 0xd800) : (Char.ofNat n).toNat = n := by
  have hv : n.isValidChar := Or.inl h
  simp only [Char.ofNat, hv, dif_pos, Char.ofNatAux, Char.toNat]
  exact UInt32.toNat_ofNatLT ..

theorem lowerChar_letter {c : Char} (h : Py.isLetter (Py.lowerChar c) = true) : Py.isLetter c = true := by
  unfold Py.lowerChar at h
  split at h
  · next hc => simp [Py.isLetter, hc.1, hc.2]
  · exact h

theorem lower_letters {n low : Str} (h : Py.lower n = low) (hl : ∀ c ∈ low, Py.isLetter c = true) :
    ∀ c ∈ n, Py.isLetter c = true := by
  intro c hc
  refine lowerChar_letter (hl _ ?_)
  rw [← h]
  exact List.mem_map.2 ⟨c, hc, rfl⟩

theorem lower_ident {T : Tables} {n low : Str} (h : Py.lower n = low) (h0 : low ≠ []) (hl : ∀ c ∈ low, Py.isLetter c = true) :
    Ident T n := by
  refine letters_ident ?_ (lower_letters h hl)
  rintro rfl
  exact h0 h.symm

theorem keyword_of {n : Str} {k : Str × Keyword} (hk : k ∈ keywords) (h : Py.lower n = k.1) : keyword n = k.2 := by
  have hx : n ≠ ['X'] := by
    rintro rfl
    have : ∀ k ∈ keywords, k.1 ≠ Py.lower ['X'] := by decide +kernel
    exact this k hk h.symm
  have hf : ∀ k ∈ keywords, keywords.find? (fun j => j.1 = k.1) = some k := by decide +kernel
  unfold keyword
  rw [if_neg hx, h, hf k hk]

theorem keyword_X : keyword ['X'] = .binary := by decide +kernel

theorem keyword_letters : ∀ k ∈ keywords, k.1 ≠ [] ∧ ∀ c ∈ k.1, Py.isLetter c = true := by decide +kernel

/-- What follows a name ends it. -/
def Ends (T : Tables) (rest : Str) : Prop := NoHead T.more rest ∧ NoHead (· == '.') rest

theorem ends_cons {T : Tables} {c : Char} {t : Str} (h : c.toNat < 128)
    (h2 : (Py.isLetter c || Py.isDigit c || c == '_') = false) (h3 : c ≠ '.') : Ends T (c :: t) :=
  ⟨noHead_cons (more_ascii_false h h2), noHead_cons (by simpa using h3)⟩

theorem Sep.ends {T : Tables} {rest : Str} (h : Sep rest) : Ends T rest := by
  cases rest with
  | nil => exact ⟨noHead_nil, noHead_nil⟩
  | cons c t =>
    rcases h c t rfl with rfl | rfl | rfl | rfl | rfl <;> exact ends_cons (by decide) (by decide) (by decide)

theorem word_read {T : Tables} {n low rest : Str} {kw : Keyword} (hk : (low, kw) ∈ keywords) (h : Py.lower n = low)
    (hr : Ends T rest) : uriLiteral T (n ++ rest) = namedLiteral T (n ++ rest) n rest ∧ keyword n = kw := by
  have hl := keyword_letters _ hk
  refine ⟨?_, keyword_of hk h⟩
  unfold uriLiteral
  rw [ident_read (lower_ident h hl.1 hl.2) hr.1 hr.2]

/-! ## Quotes -/

theorem stringLoop_read : ∀ {s rest : Str}, NoHead (· == '\'') rest →
    stringLoop (s.flatMap (fun c => if c = '\'' then ['\'', '\''] else [c]) ++ '\'' :: rest) = .ok (s, rest)
  | [], rest, h => by
    cases rest with
    | nil => rfl
    | cons c t =>
      have hc : c ≠ '\'' := by simpa using h c t rfl
      simp only [List.flatMap_nil, List.nil_append]
      rw [stringLoop.eq_def]
      split
      · next he => cases he
      · next he => injection he with _ he; injection he with he _; exact absurd he hc
      · next he => injection he with _ he; rw [he]
      · next h1 h2 he => injection he with he _; exact (h2 he.symm).elim
  | c :: s, rest, h => by
    by_cases hc : c = '\''
    · subst hc
      simp only [List.flatMap_cons, if_true, List.cons_append, List.nil_append, stringLoop]
      rw [stringLoop_read h]
      rfl
    · simp only [List.flatMap_cons, if_neg hc, List.cons_append, List.nil_append]
      rw [stringLoop.eq_def]
      split
      · next he => cases he
      · next he => injection he with he _; exact absurd he hc
      · next he => injection he with he _; exact absurd he hc
      · next he =>
        injection he with h1 h2
        subst h1
        rw [← h2, stringLoop_read h]
        rfl

/-! ## Numbers -/

theorem digit_not_letter {c : Char} (h : Py.isDigit c = true) : Py.isLetter c = false ∧ c.toNat < 128 ∧ c ≠ '-' ∧ c ≠ '\'' := by
  simp only [Py.isDigit, Bool.and_eq_true, decide_eq_true_eq] at h
  refine ⟨?_, by omega, ?_, ?_⟩
  · simp only [Py.isLetter, Bool.or_eq_false_iff, Bool.and_eq_false_iff, decide_eq_false_iff_not]
    omega
  · rintro rfl; revert h; decide
  · rintro rfl; revert h; decide

theorem digit_lower {c : Char} (h : Py.isDigit c = true) : Py.lowerChar c = c := by
  simp only [Py.isDigit, Bool.and_eq_true, decide_eq_true_eq] at h
  unfold Py.lowerChar
  rw [if_neg (by omega)]

theorem digit_ne_i {c : Char} (h : Py.isDigit c = true) : c ≠ 'i' ∧ c ≠ 'n' := by
  constructor <;> (rintro rfl; revert h; decide)

theorem noInsensitive {a : Char} {low : Str} {c : Char} {s : Str} (h : Py.lowerChar c ≠ a) :
    parseInsensitive (a :: low) (c :: s) = none := by
  unfold parseInsensitive
  rw [if_neg]
  rintro ⟨_, h2⟩
  simp only [List.length_cons, List.take_succ_cons, Py.lower, List.map_cons] at h2
  injection h2 with h2 _
  exact h h2

/-- Numbers begin with a digit or a minus. -/
theorem number_literal {T : Tables} {c : Char} {t : Str} (h : c = '-' ∨ Py.isDigit c = true) :
    uriLiteral T (c :: t) = parseNumber (c :: t) := by
  have hs : T.start c = false := by
    rcases h with rfl | h
    · exact start_ascii_false (by decide) (by decide)
    · exact start_ascii_false (digit_not_letter h).2.1 (digit_not_letter h).1
  have hq : c ≠ '\'' := by
    rcases h with rfl | h
    · decide
    · exact (digit_not_letter h).2.2.2
  unfold uriLiteral simpleIdentifier
  rw [identLoop, if_neg (by simp [hs])]
  dsimp only
  split
  · next he => injection he with he _; exact absurd he hq
  · next c' t' he =>
    injection he with h1 h2
    subst h1; subst h2
    rw [if_pos]
    rcases h with h | h
    · exact Or.inl h
    · exact Or.inr (Or.inr h)
  · next he => cases he

theorem parseSign_of {neg : Bool} {t : Str} (h : NoHead (· == '-') t) : parseSign (sign neg t) = (neg, t) := by
  unfold parseSign sign
  cases neg with
  | false => simp [parseChar_none h]
  | true => simp [parseChar_self]

/-- The texts after the digits: nothing or a point with digits. -/
def pointText : Option Str → Str
  | none => []
  | some f => '.' :: f

/-- The text of an exponent. -/
def expText : Option (Char × Bool × Str) → Str
  | none => []
  | some (m, neg, x) => m :: sign neg x

/-- A well-formed exponent. -/
def ExpOk (e : Option (Char × Bool × Str)) : Prop := ∀ m neg x, e = some (m, neg, x) → (m = 'E' ∨ m = 'e') ∧ Digits x

theorem parseUnsigned_read {neg : Bool} {d rest : Str} {f : Option Str} {ex : Option (Char × Bool × Str)} (hd : Digits d)
    (hf : ∀ g, f = some g → Digits g) (hx : ExpOk ex) (h1 : NoHead Py.isDigit rest) (h2 : NoHead (· == '.') rest) (h3 : NoHead (fun c => c == 'e' || c == 'E') rest) :
    parseUnsigned neg (d ++ (pointText f ++ (expText ex ++ rest))) =
      some ({ neg := neg, special := none, l := d, r := f, e := ex.map (·.2) }, rest) := by
  have hexp : ∀ {p : Char → Bool}, p 'E' = false → p 'e' = false → NoHead p rest → NoHead p (expText ex ++ rest) := by
    intro p a1 a2 a3
    cases ex with
    | none => exact a3
    | some v =>
      obtain ⟨m, neg, x⟩ := v
      refine noHead_cons ?_
      rcases (hx m neg x rfl).1 with rfl | rfl <;> assumption
  have hq1 := hexp (p := Py.isDigit) (by decide) (by decide) h1
  have hq2 := hexp (p := (· == '.')) (by decide) (by decide) h2
  have hp : NoHead Py.isDigit (pointText f ++ (expText ex ++ rest)) := by
    cases f with
    | none => exact hq1
    | some g => exact noHead_cons (by decide)
  have hpp : parsePoint (pointText f ++ (expText ex ++ rest)) = (f, expText ex ++ rest) := by
    unfold parsePoint
    cases f with
    | none => simp only [pointText, List.nil_append]; rw [parseChar_none hq2]
    | some g =>
      simp only [pointText, List.cons_append]
      rw [parseChar_self]
      dsimp only [parseDigits]
      rw [(takeWhile_all (hf g rfl).2 hq1).1, (takeWhile_all (hf g rfl).2 hq1).2]
  have hpe : parseExponent (expText ex ++ rest) = (ex.map (·.2), rest) := by
    unfold parseExponent
    cases ex with
    | none =>
      cases rest with
      | nil => rfl
      | cons c t =>
        have := h3 c t rfl
        simp only [expText, List.nil_append, parseOne, this]
        rfl
    | some v =>
      obtain ⟨m, neg, x⟩ := v
      obtain ⟨hm, hxd⟩ := hx m neg x rfl
      have ho : parseOne (fun c => c == 'e' || c == 'E') (m :: (sign neg x ++ rest)) = some (m, sign neg x ++ rest) := by
        rcases hm with rfl | rfl <;> rfl
      simp only [expText, List.cons_append, ho, parseDigits]
      cases neg with
      | true =>
        simp only [sign, if_true, List.cons_append, parseChar_self, (takeWhile_all hxd.2 h1).1, (takeWhile_all hxd.2 h1).2]
        rfl
      | false =>
        have hn : NoHead (· == '-') (x ++ rest) := noHead_append hxd.1 (fun c hc => by
          simpa using (digit_not_letter (hxd.2 c hc)).2.2.1)
        simp only [sign, Bool.false_eq_true, if_false, parseChar_none hn, (takeWhile_all hxd.2 h1).1, (takeWhile_all hxd.2 h1).2]
        rfl
  unfold parseUnsigned parseDigits
  dsimp only
  rw [(takeWhile_all hd.2 hp).1, (takeWhile_all hd.2 hp).2, hpp, if_neg (by simp [hd.1]), hpe]

theorem parseNumeric_read {neg : Bool} {d rest : Str} {f : Option Str} {ex : Option (Char × Bool × Str)} (hd : Digits d)
    (hf : ∀ g, f = some g → Digits g) (hx : ExpOk ex) (h1 : NoHead Py.isDigit rest) (h2 : NoHead (· == '.') rest) (h3 : NoHead (fun c => c == 'e' || c == 'E') rest) :
    parseNumeric (sign neg (d ++ (pointText f ++ (expText ex ++ rest)))) =
      some ({ neg := neg, special := none, l := d, r := f, e := ex.map (·.2) }, rest) := by
  obtain ⟨c, u, rfl⟩ : ∃ c u, d = c :: u := by
    cases d with
    | nil => exact absurd rfl hd.1
    | cons c u => exact ⟨c, u, rfl⟩
  have hc := hd.2 c (by simp)
  unfold parseNumeric
  rw [parseSign_of (by exact noHead_cons (by simpa using (digit_not_letter hc).2.2.1))]
  dsimp only
  rw [List.cons_append, noInsensitive (by rw [digit_lower hc]; exact (digit_ne_i hc).1),
    noInsensitive (by rw [digit_lower hc]; exact (digit_ne_i hc).2)]
  dsimp only
  rw [← List.cons_append]
  exact parseUnsigned_read hd hf hx h1 h2 h3

theorem number_read {T : Tables} {neg : Bool} {d rest : Str} {f : Option Str} {ex : Option (Char × Bool × Str)} (hd : Digits d)
    (hf : ∀ g, f = some g → Digits g) (hx : ExpOk ex) (h1 : NoHead Py.isDigit rest) (h2 : NoHead (· == '.') rest)
    (h3 : NoHead (fun c => c == 'e' || c == 'E') rest) :
    uriLiteral T (sign neg (d ++ (pointText f ++ (expText ex ++ rest)))) =
      match rest with
      | c :: u =>
        if c = 'D' ∨ c = 'd' then
          (setDouble { neg := neg, special := none, l := d, r := f, e := ex.map (·.2) }).map fun v => (some v, u)
        else if c = 'F' ∨ c = 'f' then
          (setSingle { neg := neg, special := none, l := d, r := f, e := ex.map (·.2) }).map fun v => (some v, u)
        else if c = 'M' ∨ c = 'm' then
          (setDecimal { neg := neg, special := none, l := d, r := f, e := ex.map (·.2) }).map fun v => (some v, u)
        else if c = 'L' ∨ c = 'l' then
          (setInteger 19 63 { neg := neg, special := none, l := d, r := f, e := ex.map (·.2) }).map fun v => (some (.int64 v), u)
        else
          (setInteger 10 31 { neg := neg, special := none, l := d, r := f, e := ex.map (·.2) }).map fun v => (some (.int32 v), c :: u)
      | [] =>
        (setInteger 10 31 { neg := neg, special := none, l := d, r := f, e := ex.map (·.2) }).map fun v => (some (.int32 v), []) := by
  have hn := parseNumeric_read (neg := neg) hd hf hx h1 h2 h3
  have hu : uriLiteral T (sign neg (d ++ (pointText f ++ (expText ex ++ rest)))) = parseNumber (sign neg (d ++ (pointText f ++ (expText ex ++ rest)))) := by
    unfold sign
    split
    · exact number_literal (Or.inl rfl)
    · cases d with
      | nil => exact absurd rfl hd.1
      | cons c u => exact number_literal (Or.inr (hd.2 c (by simp)))
  rw [hu]
  unfold parseNumber
  rw [hn]
  cases rest <;> rfl

theorem setInteger_ok {digits bits : Nat} {neg : Bool} {d : Str} (hd : Digits d) (hl : d.length ≤ digits)
    (h1 : -(2 ^ bits : Nat) ≤ signed neg (Py.digitsVal 10 d)) (h2 : signed neg (Py.digitsVal 10 d) ≤ (2 ^ bits : Nat) - 1) :
    setInteger digits bits { neg := neg, special := none, l := d, r := none, e := none } =
      .ok (signed neg (Py.digitsVal 10 d)) := by
  unfold setInteger
  rw [if_neg (by simp [hd.1]; omega)]
  have : (Numeric.int { neg := neg, special := none, l := d, r := none, e := none }) = signed neg (Py.digitsVal 10 d) := rfl
  rw [this, if_neg (by omega)]

theorem hexVal_digit {c : Char} (h : Py.isDigit c = true) : Py.hexVal c < 10 := by
  simp only [Py.isDigit, Bool.and_eq_true, decide_eq_true_eq] at h
  unfold Py.hexVal
  rw [if_pos (by omega)]
  omega

theorem digitsVal_lt_aux : ∀ (d : Str) (a : Nat), (∀ c ∈ d, Py.isDigit c = true) →
    d.foldl (fun acc c => acc * 10 + Py.hexVal c) a < (a + 1) * 10 ^ d.length
  | [], a, _ => by simp
  | c :: d, a, h => by
    have h1 := digitsVal_lt_aux d (a * 10 + Py.hexVal c) (fun x hx => h x (by simp [hx]))
    have h2 := hexVal_digit (h c (by simp))
    rw [List.foldl_cons, List.length_cons, Nat.pow_succ]
    refine Nat.lt_of_lt_of_le h1 ?_
    rw [Nat.mul_comm (10 ^ d.length) 10, ← Nat.mul_assoc]
    exact Nat.mul_le_mul_right _ (by omega)

theorem digitsVal_lt {d : Str} (h : ∀ c ∈ d, Py.isDigit c = true) : Py.digitsVal 10 d < 10 ^ d.length := by
  have := digitsVal_lt_aux d 0 h
  simpa [Py.digitsVal] using this

theorem exceeds_below {m : Nat} {e : Int} {bound : Nat} (h : Below m e bound) : exceeds m e bound = false := by
  unfold exceeds
  split
  · next he => simpa using h.1 he
  · next he => simpa using h.2 (by omega)

theorem below_mono {m : Nat} {e : Int} {a b : Nat} (h : Below m e a) (hab : a ≤ b) : Below m e b :=
  ⟨fun he => Nat.le_trans (h.1 he) hab, fun he => Nat.le_trans (h.2 he) (Nat.mul_le_mul_right _ hab)⟩

theorem below_digits {d f : Str} {n B : Nat} (hd : ∀ c ∈ d ++ f, Py.isDigit c = true) (hl : d.length ≤ n) (hB : 10 ^ n ≤ B) :
    Below (Py.digitsVal 10 (d ++ f)) (-(f.length : Int)) B := by
  have hv := digitsVal_lt hd
  rw [List.length_append, Nat.pow_add] at hv
  have h1 : 10 ^ d.length ≤ 10 ^ n := Nat.pow_le_pow_right (by omega) hl
  constructor
  · intro h
    have : f.length = 0 := by omega
    simp only [this, Nat.pow_zero, Nat.mul_one, Int.ofNat_zero, Int.neg_zero, Int.toNat_zero] at hv ⊢
    omega
  · intro _
    have : (- -(f.length : Int)).toNat = f.length := by omega
    rw [this]
    have : 10 ^ d.length * 10 ^ f.length ≤ B * 10 ^ f.length := Nat.mul_le_mul_right _ (by omega)
    omega

end Verif.OData
