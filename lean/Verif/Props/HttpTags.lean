import Verif.Props.HttpVersions

/-!
# Products, versions, tags and byte ranges in headers

C135: products, versions, language tags, entity tags and byte ranges are written and read back.
C136: values as keys of dictionaries.
-/

set_option linter.unusedVariables false
set_option linter.unusedSimpArgs false

namespace Verif.Props

open Verif Verif.Http

/-! ## C135 -/

theorem digit_tok {c : Char} (h : Py.isDigit c = true) : isTok c = true := by
  rw [isTok_iff]
  have h2 : 48 ≤ c.toNat ∧ c.toNat ≤ 57 := by
    unfold Py.isDigit at h
    simp only [Bool.and_eq_true, decide_eq_true_eq] at h
    exact h
  refine ⟨by omega, by omega, ?_⟩
  simp only [String.reduceToList, List.mem_cons, List.not_mem_nil, or_false]
  intro hc
  rcases hc with h | h | h | h | h | h | h | h | h | h | h | h | h | h | h | h | h <;> subst h <;> revert h2 <;> decide

theorem token_strNat (n : Nat) : Token (Py.strNat n) :=
  ⟨XmlUtils.strNat_ne_nil n, List.all_eq_true.mpr fun c hc => digit_tok (List.all_eq_true.mp (XmlUtils.strNat_all n) c hc)⟩

theorem token_append {a b : Str} (ha : Token a) (hb : b.all isTok = true) : Token (a ++ b) := by
  refine ⟨fun e => ha.1 (List.append_eq_nil_iff.mp e).1, ?_⟩
  rw [List.all_append, ha.2, hb]
  rfl

theorem isDigits_strNat (n : Nat) : isDigits (Py.strNat n) = true := by
  unfold isDigits
  rw [Bool.and_eq_true]
  refine ⟨?_, XmlUtils.strNat_all n⟩
  have := XmlUtils.strNat_ne_nil n
  cases h : Py.strNat n with
  | nil => exact absurd h this
  | cons => rfl

/-- **C135.**  Every version of HTTP is written so that it is read back. -/
theorem version_exact (v : HttpVersion) : versionFromString v.format = some (.ok v) := by
  have t2 : Token (Py.strNat v.major ++ '.' :: Py.strNat v.minor) :=
    token_append (token_strNat _) (by rw [List.all_cons, (token_strNat v.minor).2]; decide)
  have hh : Token ['H', 'T', 'T', 'P'] := ⟨by decide, by decide⟩
  have hw : words true v.format = some (.ok [some ['H', 'T', 'T', 'P'], some ['/'], some (Py.strNat v.major ++ '.' :: Py.strNat v.minor)]) := by
    have a1 := words_token (ign := true) t2 (rest := []) (fun c u e => by cases e) (words_nil true)
    rw [List.append_nil] at a1
    have a2 := words_sep (c := '/') (by decide) (by decide) (by decide) (by decide) a1
    have a3 := words_token_then hh (by decide) a2
    exact a3
  refine fromString_ok (r := []) hw ?_
  have hreq : requireHttpVersion [some ['H', 'T', 'T', 'P'], some ['/'], some (Py.strNat v.major ++ '.' :: Py.strNat v.minor)] =
      .ok (v, []) := by
    unfold requireHttpVersion
    rw [bind_run, parseSP_token hh, Except.bind, bind_run, requireToken_token hh, Except.bind]
    dsimp only
    rw [if_neg (by decide), bind_run, parseSP_other (by simp [cWord]), Except.bind, bind_run, requireSeparator_self, Except.bind,
      bind_run, parseSP_token t2, Except.bind, bind_run, requireToken_token t2, Except.bind]
    dsimp only
    rw [CP.split_append, CP.split_of_not_mem '.' _ (CP.strNat_no dot_not_digit _),
      CP.split_of_not_mem '.' _ (CP.strNat_no dot_not_digit _)]
    simp only [List.singleton_append]
    rw [isDigits_strNat, isDigits_strNat, XmlUtils.strNat_val, XmlUtils.strNat_val]
    rfl
  have : parseHttpVersion [some ['H', 'T', 'T', 'P'], some ['/'], some (Py.strNat v.major ++ '.' :: Py.strNat v.minor)] =
      .ok (v, []) := by
    unfold parseHttpVersion
    rw [hreq]
  rw [bind_run, this]
  rfl

/-- The words of a product. -/
def productWords (p : Product) : Words :=
  match p.version with
  | none => [some p.token]
  | some v => [some p.token, some ['/'], some v]

/-- A product that can be written. -/
def ProductOk (p : Product) : Prop := IsToken p.token ∧ ∀ v, p.version = some v → IsToken v

theorem words_product {p : Product} (h : ProductOk p) {rest : Str} {ws : Words} (hr : Stops rest)
    (hw : words true rest = some (.ok ws)) : words true (p.format ++ rest) = some (.ok (productWords p ++ ws)) := by
  have ht := (token_iff _).mpr h.1
  unfold Product.format productWords
  cases hv : p.version with
  | none => exact words_token ht hr hw
  | some v =>
    have a1 := words_token ((token_iff _).mpr (h.2 v hv)) hr hw
    have a2 := words_sep (c := '/') (by decide) (by decide) (by decide) (by decide) a1
    have a3 := words_token_then ht (by decide) a2
    simpa using a3

theorem requireProduct_good {p : Product} (h : ProductOk p) {ws : Words} (hn : cWord ws ≠ some ['/']) (hs : cWord ws ≠ some [' ']) :
    requireProduct (productWords p ++ ws) = .ok (p, ws) := by
  have ht := (token_iff _).mpr h.1
  unfold requireProduct productWords
  cases hv : p.version with
  | none =>
    simp only [List.cons_append, List.nil_append]
    rw [bind_run, parseSP_token ht, Except.bind, bind_run, requireToken_token ht, Except.bind, bind_run, parseSP_other hs,
      Except.bind, bind_run, parseSeparator_other hn, Except.bind]
    dsimp only
    rw [if_neg (by decide), pure_run]
    obtain ⟨t, v⟩ := p
    dsimp only at hv
    rw [hv]
  | some v =>
    simp only [List.cons_append, List.nil_append]
    rw [bind_run, parseSP_token ht, Except.bind, bind_run, requireToken_token ht, Except.bind, bind_run,
      parseSP_other (by simp [cWord]), Except.bind, bind_run, parseSeparator_self, Except.bind]
    dsimp only
    rw [if_pos rfl, bind_run, requireToken_token ((token_iff _).mpr (h.2 v hv)), Except.bind, pure_run]
    obtain ⟨t, w⟩ := p
    dsimp only at hv
    rw [hv]

/-- **C135.**  A product is written so that it is read back. -/
theorem product_exact (p : Product) (h : ProductOk p) : productFromString p.format = some (.ok p) := by
  have hw := words_product h (rest := []) (fun c u e => by cases e) (words_nil true)
  rw [List.append_nil, List.append_nil] at hw
  refine fromString_ok (r := []) hw ?_
  have hreq := requireProduct_good h (ws := []) (by simp [cWord]) (by simp [cWord])
  rw [List.append_nil] at hreq
  have hsp : parseSP (productWords p) = .ok ((), productWords p) := by
    unfold productWords
    cases p.version <;> exact parseSP_token ((token_iff _).mpr h.1) _
  rw [bind_run, hsp, Except.bind, bind_run, hreq, Except.bind]
  rfl

/-- The text of products: with a space between. -/
def spaced : List Product → Str
  | [] => []
  | [p] => p.format
  | p :: q :: l => p.format ++ ' ' :: spaced (q :: l)

theorem words_spaced {l : List Product} (h : ∀ p ∈ l, ProductOk p) :
    words true (spaced l) = some (.ok (l.flatMap productWords)) := by
  induction l with
  | nil => exact words_nil true
  | cons p l ih =>
    cases l with
    | nil =>
      have hw := words_product (h p (by simp)) (rest := []) (fun c u e => by cases e) (words_nil true)
      rw [List.append_nil] at hw
      simpa [spaced] using hw
    | cons q l =>
      have ih := ih fun r hr => h r (by simp [hr])
      have hq := (token_iff _).mpr (h q (by simp)).1
      have : ∃ rest, spaced (q :: l) = q.token ++ rest := by
        have hf : ∃ u, q.format = q.token ++ u := by
          unfold Product.format
          cases q.version with
          | none => exact ⟨[], by rw [List.append_nil]⟩
          | some v => exact ⟨_, rfl⟩
        obtain ⟨u, hu⟩ := hf
        cases l with
        | nil => exact ⟨u, hu⟩
        | cons r l => exact ⟨u ++ ' ' :: spaced (r :: l), by show q.format ++ _ = _; rw [hu, List.append_assoc]⟩
      obtain ⟨rest, e⟩ := this
      have hsp : words true (' ' :: spaced (q :: l)) = some (.ok ((q :: l).flatMap productWords)) := by
        rw [e] at ih ⊢
        have := words_space_token hq ih
        simpa using this
      have := words_product (h p (by simp)) (rest := ' ' :: spaced (q :: l))
        (fun c u e => by injection e with e _; subst e; decide) hsp
      show words true (p.format ++ ' ' :: spaced (q :: l)) = _
      rw [this]
      rfl

theorem cWord_products {l : List Product} (h : ∀ p ∈ l, ProductOk p) {c : Char} (hc : isTok c = false) :
    cWord (l.flatMap productWords) ≠ some [c] := by
  cases l with
  | nil => simp [cWord]
  | cons p l =>
    have ht := (token_iff _).mpr (h p (by simp)).1
    have : cWord ((p :: l).flatMap productWords) = some p.token := by
      rw [List.flatMap_cons]
      unfold productWords
      cases p.version <;> rfl
    rw [this]
    simp only [ne_eq, Option.some.injEq]
    intro e
    have := ht.2
    rw [e] at this
    simp [hc] at this

/-- **C135.**  Products with spaces between them are read as a list. -/
theorem products_exact (l : List Product) (h : ∀ p ∈ l, ProductOk p) :
    productsFromString (spaced l) = some (.ok l) := by
  refine fromString_ok (r := []) (words_spaced h) ?_
  have hloop : ∀ n, l.length ≤ n → productLoop n (l.flatMap productWords) = .ok (l, []) := by
    induction l with
    | nil => intro n _; cases n <;> rfl
    | cons p l ih =>
      intro n hn
      cases n with
      | zero => simp at hn
      | succ n =>
        have ht := (token_iff _).mpr (h p (by simp)).1
        have hc : cWord ((p :: l).flatMap productWords) = some p.token := by
          rw [List.flatMap_cons]
          unfold productWords
          cases p.version <;> rfl
        have h' : ∀ q ∈ l, ProductOk q := fun q hq => h q (by simp [hq])
        have n1 := cWord_products h' (c := '/') (by decide)
        have n2 := cWord_products h' (c := ' ') (by decide)
        unfold productLoop
        rw [hc, if_neg (by simp), List.flatMap_cons, bind_run, requireProduct_good (h p (by simp)) n1 n2, Except.bind,
          bind_run, parseSP_other n2, Except.bind, bind_run, ih h' n (by simp only [List.length_cons] at hn; omega)]
        rfl
  have hlen : l.length ≤ (l.flatMap productWords).length := by
    clear hloop
    induction l with
    | nil => exact Nat.le_refl _
    | cons p l ih =>
      have := ih fun q hq => h q (by simp [hq])
      have h1 : 1 ≤ (productWords p).length := by unfold productWords; cases p.version <;> simp
      rw [List.flatMap_cons, List.length_append, List.length_cons]
      omega
  rw [bind_run, parseSP_other (cWord_products h (by decide)), Except.bind, bind_run, get_run, Except.bind, bind_run,
    hloop _ hlen]
  rfl

/-- **C135.**  A language tag is written so that it is read back. -/
theorem language_exact (l : LanguageTag) (h : ∀ p ∈ l.primary :: l.subtags, IsToken p ∧ '-' ∉ p) :
    languageFromString l.format = some (.ok l) := by
  have hsplit : Py.split '-' l.format = l.primary :: l.subtags := by
    unfold LanguageTag.format
    generalize l.primary = p at h
    generalize l.subtags = s at h
    induction s generalizing p with
    | nil => exact CP.split_of_not_mem '-' p (h p (by simp)).2
    | cons q s ih =>
      show Py.split '-' (p ++ '-' :: Py.join '-' (q :: s)) = _
      rw [CP.split_append, CP.split_of_not_mem '-' p (h p (by simp)).2, ih q fun r hr => h r (by simp [hr])]
      rfl
  have ht : Token l.format := by
    unfold LanguageTag.format
    generalize l.primary = p at h
    generalize l.subtags = s at h
    induction s generalizing p with
    | nil => exact (token_iff _).mpr (h p (by simp)).1
    | cons q s ih =>
      refine token_append ((token_iff _).mpr (h p (by simp)).1) ?_
      rw [List.all_cons, (ih q fun r hr => h r (by simp [hr])).2]
      decide
  have hw := words_token (ign := false) ht (rest := []) (fun c u e => by cases e) (words_nil false)
  rw [List.append_nil] at hw
  refine fromString_ok (r := []) hw ?_
  have hreq : requireLanguageTag [some l.format] = .ok (l, []) := by
    unfold requireLanguageTag
    rw [bind_run, parseSP_token ht, Except.bind, bind_run, requireToken_token ht, Except.bind, bind_run,
      parseSP_other (by simp [cWord]), Except.bind]
    dsimp only
    rw [hsplit]
    rfl
  rw [bind_run, parseSP_token ht, Except.bind, bind_run, hreq]
  rfl

/-- **C135.**  An entity tag, weak or strong, is written so that it is read back, whatever octets it consists of. -/
theorem entity_tag_exact (e : EntityTag) (h : ∀ c ∈ e.tag, c.toNat < 256) : entityTagFromString e.format = some (.ok e) := by
  have ho : e.tag.all isOctet = true := List.all_eq_true.mpr fun c hc => by
    unfold isOctet; rw [decide_eq_true_eq]; exact h c hc
  have a1 := words_quoted (ign := true) ho (words_nil true)
  rw [List.append_nil] at a1
  have hq : parseQuotedString [some (quoteString e.tag true)] = .ok (some e.tag, []) := by
    unfold parseQuotedString
    have h1 : isQuotedString [some (quoteString e.tag true)] = true := by
      rw [quoteString_forced]; rfl
    rw [h1]
    show Except.ok (some (decodeQuoted (quoteString e.tag true)), _) = _
    rw [decode_quote]
    rfl
  have hnt : cWord [some (quoteString e.tag true)] ≠ some [' '] := by
    rw [quoteString_forced]
    simp [cWord]
  have hnot : isToken [some (quoteString e.tag true)] = false := by
    rw [quoteString_forced]
    rfl
  have hW : Token ['W'] := ⟨by decide, by decide⟩
  unfold EntityTag.format
  obtain ⟨t, w⟩ := e
  cases w with
  | true =>
    have a2 := words_sep (c := '/') (by decide) (by decide) (by decide) (by decide) a1
    have a3 := words_token_then hW (by decide) a2
    refine fromString_ok (r := []) (ws := [some ['W'], some ['/'], some (quoteString t true)]) a3 ?_
    have hpt : parseToken [some ['W'], some ['/'], some (quoteString t true)] =
        .ok (some ['W'], [some ['/'], some (quoteString t true)]) := by
      unfold parseToken
      rfl
    rw [bind_run, parseSP_token hW, Except.bind, bind_run, hpt, Except.bind, bind_run, parseSP_other (by simp [cWord]), Except.bind]
    dsimp only
    rw [if_neg (by simp), bind_run, requireSeparator_self, Except.bind, bind_run, parseSP_other hnt, Except.bind, bind_run, hq]
    rfl
  | false =>
    refine fromString_ok (r := []) (ws := [some (quoteString t true)]) a1 ?_
    have hpt : parseToken [some (quoteString t true)] = .ok (none, [some (quoteString t true)]) := by
      unfold parseToken
      rw [hnot]
      rfl
    rw [bind_run, parseSP_other hnt, Except.bind, bind_run, hpt, Except.bind, bind_run, parseSP_other hnt, Except.bind]
    dsimp only
    rw [bind_run, hq]
    rfl

/-- The text of bytes. -/
def bytesText : Option (Nat × Nat) → Str
  | none => ['*']
  | some (a, b) => Py.strNat a ++ '-' :: Py.strNat b

/-- The text of a length. -/
def totalText : Option Nat → Str
  | none => ['*']
  | some n => Py.strNat n

/-- **C135.**  A byte range is written so that it is read back, whether it is valid or not; its length is the number of
bytes from the first to the last; and it is valid if there are bytes and all lie within the total. -/
theorem content_range_exact (r : ContentRange) :
    contentRangeFromString r.format = some (.ok r) ∧
    (∀ n, r.len = .ok n ↔ ∃ a b, r.bytes = some (a, b) ∧ a ≤ b ∧ n = ((List.range (b + 1)).filter (a ≤ ·)).length) ∧
    (r.isValid = true ↔ ∃ a b, r.bytes = some (a, b) ∧ a ≤ b ∧ ∀ n, r.total = some n → ∀ k, a ≤ k → k ≤ b → k < n) := by
  obtain ⟨bytes, total⟩ := r
  refine ⟨?_, ?_, ?_⟩
  · have hb : Token ['b', 'y', 't', 'e', 's'] := ⟨by decide, by decide⟩
    have hstar : Token ['*'] := ⟨by decide, by decide⟩
    have ht : Token (totalText total) := by
      cases total with
      | none => exact hstar
      | some n => exact token_strNat n
    have hs : Token (bytesText bytes) := by
      cases bytes with
      | none => exact hstar
      | some ab =>
        obtain ⟨a, b⟩ := ab
        exact token_append (token_strNat a) (by rw [List.all_cons, (token_strNat b).2]; decide)
    have hw : words true (ContentRange.format ⟨bytes, total⟩) = some (.ok [some ['b', 'y', 't', 'e', 's'],
        some (bytesText bytes), some ['/'],
        some (totalText total)]) := by
      have a1 := words_token (ign := true) ht (rest := []) (fun c u e => by cases e) (words_nil true)
      rw [List.append_nil] at a1
      have a2 := words_sep (c := '/') (by decide) (by decide) (by decide) (by decide) a1
      have a3 := words_token_then hs (by decide) a2
      have a4 := words_space_token hs a3
      have a5 := words_token_then hb (by decide) a4
      have e : ContentRange.format ⟨bytes, total⟩ = ['b', 'y', 't', 'e', 's'] ++ ' ' :: (bytesText bytes ++ '/' :: totalText total) := by
        unfold ContentRange.format
        cases bytes <;> cases total <;> simp [bytesText, totalText]
      rw [e, a5]
      rfl
    refine fromString_ok (r := []) hw ?_
    rw [bind_run, parseSP_token hb, Except.bind, bind_run, requireToken_token hb, Except.bind]
    dsimp only
    rw [if_neg (by decide), bind_run, parseSP_token hs, Except.bind, bind_run, requireToken_token hs, Except.bind]
    dsimp only
    have no : ∀ n, Py.strNat n ≠ ['*'] := by
      intro n e
      have := XmlUtils.strNat_all n
      rw [e] at this
      exact absurd this (by decide)
    have hdash : Py.isDigit '-' = false := by decide
    have mid : ∀ ws : Words, (do
        parseSP
        requireSeparator '/'
        parseSP
        let total ← requireToken
        let total ←
          if total = ['*'] then pure none
          else if isDigits total then pure (some (Py.digitsVal 10 total))
          else throw .syntaxError
        parseSP
        requireEnd
        return (⟨bytes, total⟩ : ContentRange) : P ContentRange)
        [some ['/'], some (totalText total)] = .ok (⟨bytes, total⟩, []) := by
      intro _
      rw [bind_run, parseSP_other (by simp [cWord]), Except.bind, bind_run, requireSeparator_self, Except.bind, bind_run,
        parseSP_token ht, Except.bind, bind_run, requireToken_token ht, Except.bind]
      dsimp only
      cases total with
      | none => rfl
      | some n =>
        rw [if_neg (show ¬ totalText (some n) = ['*'] from no n),
          if_pos (show isDigits (totalText (some n)) = true from isDigits_strNat n),
          show Py.digitsVal 10 (totalText (some n)) = n from XmlUtils.strNat_val n]
        rfl
    cases bytes with
    | none =>
      rw [if_pos (show bytesText none = ['*'] from rfl)]
      exact mid []
    | some ab =>
      obtain ⟨a, b⟩ := ab
      have h1 : bytesText (some (a, b)) ≠ ['*'] := by
        intro e
        change Py.strNat a ++ '-' :: Py.strNat b = ['*'] at e
        have := XmlUtils.strNat_ne_nil a
        match h : Py.strNat a with
        | [] => exact this h
        | [c] => rw [h] at e; simp at e
        | c :: d :: t => rw [h] at e; simp at e
      have h2 : Py.split '-' (bytesText (some (a, b))) = [Py.strNat a, Py.strNat b] := by
        show Py.split '-' (Py.strNat a ++ '-' :: Py.strNat b) = _
        rw [CP.split_append, CP.split_of_not_mem '-' _ (CP.strNat_no hdash _),
          CP.split_of_not_mem '-' _ (CP.strNat_no hdash _)]
        rfl
      rw [if_neg h1, h2]
      dsimp only
      rw [isDigits_strNat, isDigits_strNat, XmlUtils.strNat_val, XmlUtils.strNat_val]
      exact mid []
  · intro n
    unfold ContentRange.len
    cases bytes with
    | none => simp
    | some ab =>
      obtain ⟨a, b⟩ := ab
      have hcount : a ≤ b → ((List.range (b + 1)).filter (fun k => decide (a ≤ k))).length = b - a + 1 := by
        intro hab
        have : b + 1 = a + (b - a + 1) := by omega
        rw [this, List.range_add, List.filter_append, List.length_append]
        have h1 : (List.range a).filter (fun k => decide (a ≤ k)) = [] := by
          rw [List.filter_eq_nil_iff]
          intro k hk
          have := List.mem_range.mp hk
          simp; omega
        have h2 : ((List.range (b - a + 1)).map (a + ·)).filter (fun k => decide (a ≤ k)) = (List.range (b - a + 1)).map (a + ·) := by
          rw [List.filter_eq_self]
          intro k hk
          obtain ⟨j, _, rfl⟩ := List.mem_map.mp hk
          simp
        rw [h1, h2]
        simp
      simp only [Option.some.injEq, Prod.mk.injEq]
      by_cases hab : a ≤ b
      · rw [if_pos hab]
        constructor
        · intro h
          injection h with h
          exact ⟨a, b, ⟨rfl, rfl⟩, hab, by rw [hcount hab, h]⟩
        · rintro ⟨a', b', ⟨rfl, rfl⟩, _, h⟩
          rw [h, hcount hab]
      · rw [if_neg hab]
        constructor
        · intro h; cases h
        · rintro ⟨a', b', ⟨rfl, rfl⟩, h, _⟩; exact absurd h hab
  · unfold ContentRange.isValid
    cases bytes with
    | none => simp
    | some ab =>
      obtain ⟨a, b⟩ := ab
      dsimp only
      simp only [Bool.and_eq_true, decide_eq_true_eq, Option.some.injEq, Prod.mk.injEq]
      cases total with
      | none =>
        constructor
        · intro h; exact ⟨a, b, ⟨rfl, rfl⟩, h.1, by intro n h; cases h⟩
        · rintro ⟨a', b', ⟨rfl, rfl⟩, h, _⟩; exact ⟨h, rfl⟩
      | some n =>
        constructor
        · intro h
          refine ⟨a, b, ⟨rfl, rfl⟩, h.1, ?_⟩
          intro m hm k h1 h2
          injection hm with hm
          have := h.2
          simp only [decide_eq_true_eq] at this
          omega
        · rintro ⟨a', b', ⟨rfl, rfl⟩, h, h2⟩
          exact ⟨h, by simpa using h2 n rfl b h (Nat.le_refl _)⟩

/-- **C135 refuted.**  A version that is not one is not a syntax error: the handler of the error names a variable that
does not exist. -/
theorem version_error_refuted :
    versionFromString "HTTP/1".toList = some (.error .nameError) ∧
    versionFromString "FTP/1.0".toList = some (.error .nameError) ∧
    ∀ t ws, words true t = some (.ok ws) → (∀ v r, requireHttpVersion ws ≠ .ok (v, r)) →
      versionFromString t ≠ some (.error .syntaxError) := by
  refine ⟨by decide +kernel, by decide +kernel, ?_⟩
  intro t ws hw hn h
  unfold versionFromString fromString at h
  rw [hw] at h
  change some ((_ : Except Fault _).map _) = _ at h
  rw [bind_run] at h
  unfold parseHttpVersion at h
  cases hr : requireHttpVersion ws with
  | ok p => exact hn p.1 p.2 hr
  | error e =>
    rw [hr] at h
    cases e <;> cases h

/-- The values of the theorems are not trivial. -/
theorem tags_hypotheses :
    ProductOk ⟨"CERN-LineMode".toList, some "2.15".toList⟩ ∧
    spaced [⟨"CERN-LineMode".toList, some "2.15".toList⟩, ⟨"libwww".toList, none⟩] = "CERN-LineMode/2.15 libwww".toList ∧
    (∀ p ∈ ["en".toList, "gb".toList], IsToken p ∧ '-' ∉ p) ∧
    EntityTag.format ⟨"a\"b".toList, true⟩ = "W/\"a\\\"b\"".toList ∧
    ContentRange.format ⟨some (0, 499), some 1234⟩ = "bytes 0-499/1234".toList ∧
    ContentRange.len ⟨some (0, 499), some 1234⟩ = .ok 500 := by
  have tok : ∀ t : Str, t ≠ [] → t.all isTok = true → IsToken t := fun t h1 h2 => (token_iff t).mp ⟨h1, h2⟩
  refine ⟨⟨tok _ (by decide) (by decide +kernel), ?_⟩, by decide +kernel, ?_, by decide +kernel, by decide +kernel, by rfl⟩
  · intro v hv
    injection hv with hv
    subst hv
    exact tok _ (by decide) (by decide +kernel)
  · intro p hp
    simp only [List.mem_cons, List.not_mem_nil, or_false] at hp
    rcases hp with rfl | rfl
    · exact ⟨tok _ (by decide) (by decide +kernel), by decide⟩
    · exact ⟨tok _ (by decide) (by decide +kernel), by decide⟩

/-! ## C136 -/

/-- **C136 (partial).**  Products, versions, language tags and entity tags that are equal have the same hash, so that a
value is found in a dictionary under every equal key.  Missing: media types, see `media_key_refuted`. -/
theorem keys_partial :
    (∀ a b : Product, cmpProduct a b = .eq → a.hashKey = b.hashKey) ∧
    (∀ a b : HttpVersion, cmpVersion a b = .eq → a.hashKey = b.hashKey) ∧
    (∀ a b : LanguageTag, cmpLanguageTag a b = .eq ↔ tagParts a = tagParts b) ∧
    (∀ a b : LanguageTag, cmpLanguageTag a b = .eq → a.hashKey = b.hashKey) ∧
    (∀ a b : EntityTag, cmpEntityTag a b = .eq ↔ a = b) ∧
    (∀ a b : EntityTag, cmpEntityTag a b = .eq → a.hashKey = b.hashKey) := by
  have hl : ∀ a b : LanguageTag, cmpLanguageTag a b = .eq ↔ tagParts a = tagParts b := by
    intro a b
    unfold cmpLanguageTag
    constructor
    · intro h; exact Std.LawfulEqCmp.eq_of_compare (cmp := compare) h
    · intro h
      rw [show a.tag = b.tag from h]
      exact Std.ReflCmp.compare_self (cmp := compare)
  have he : ∀ a b : EntityTag, cmpEntityTag a b = .eq ↔ a = b := by
    intro a b
    obtain ⟨t, w⟩ := a
    obtain ⟨t', w'⟩ := b
    unfold cmpEntityTag
    dsimp only
    constructor
    · intro h
      cases hc : compare t t' with
      | eq =>
        rw [hc] at h
        have := Std.LawfulEqCmp.eq_of_compare (cmp := compare) hc
        rw [this]
        revert h
        cases w <;> cases w' <;> intro h <;> first | rfl | exact absurd h (by decide)
      | lt => rw [hc] at h; cases h
      | gt => rw [hc] at h; cases h
    · intro h
      injection h with h1 h2
      rw [h1, h2, Std.ReflCmp.compare_self (cmp := compare), Std.ReflCmp.compare_self (cmp := compare)]
      rfl
  refine ⟨?_, ?_, hl, fun a b h => (hl a b).mp h, he, ?_⟩
  · intro a b h
    obtain ⟨h1, h2⟩ := (product_order.2.2 a b).mp h
    unfold Product.hashKey
    rw [h1, h2]
  · intro a b h
    rw [((http_version_order a b).2.1).mp h]
  · intro a b h
    rw [(he a b).mp h]

/-- **C136 refuted.**  No media type can be used as a key: the hash is that of a tuple with a list in it. -/
theorem media_key_refuted (m : MediaType) : m.hashed.ok = false := by
  unfold MediaType.hashed
  simp [Hashed.ok, Hashed.allOk]

/-- The hypotheses of `keys_partial` are met by values that are not the same. -/
theorem keys_hypotheses :
    cmpProduct ⟨"a".toList, some "1.0".toList⟩ ⟨"a".toList, some "01.0".toList⟩ = .eq ∧
    cmpLanguageTag ⟨"EN".toList, ["gb".toList]⟩ ⟨"en".toList, ["GB".toList]⟩ = .eq := by decide +kernel

end Verif.Props
