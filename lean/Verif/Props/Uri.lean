import Verif.Lemmas.Uri

/-!
# URI escaping and components (C35, C36, C53, C54, C55, C56)
-/

namespace Verif.Props

open Verif Verif.Uri Verif.Spec

set_option linter.unusedVariables false

/-! ## C35 Escaping round-trips -/

/-- Octet strings. -/
def Octets (s : Str) : Prop := ∀ c ∈ s, c.toNat < 256

theorem hex2_facts : ∀ n : Fin 256, ∃ a b, hex2 n.val = [a, b] ∧ isHex a = true ∧ isHex b = true ∧
    Py.digitsVal 16 [a, b] = n.val := by
  have h : ∀ n : Fin 256, (hex2 n.val).length = 2 ∧ (hex2 n.val).all isHex = true ∧
      Py.digitsVal 16 (hex2 n.val) = n.val := by decide +kernel
  intro n
  obtain ⟨h1, h2, h3⟩ := h n
  match hx : hex2 n.val, h1 with
  | [a, b], _ =>
    rw [hx] at h2 h3
    simp only [List.all_cons, List.all_nil, Bool.and_true, Bool.and_eq_true] at h2
    exact ⟨a, b, rfl, h2.1, h2.2, h3⟩

/-- C35: unescaping an escaped octet string gives the string back, whatever characters are treated as reserved. -/
theorem uri_escape_unescape (reserved : Char → Bool) (s : Str) (hs : Octets s) :
    unescapeData (escapeData reserved s) = s := by
  unfold unescapeData escapeData
  induction s with
  | nil => rfl
  | cons c t ih =>
    have hc := hs c (by simp)
    have ih := ih (fun d hd => hs d (by simp [hd]))
    rw [List.flatMap_cons, escapeChar]
    split
    · obtain ⟨a, b, h1, h2, h3, h4⟩ := hex2_facts ⟨c.toNat, hc⟩
      simp only at h1 h4
      rw [h1]
      show unescapeLoop .plain ('%' :: a :: b :: (t.flatMap (escapeChar reserved))) = _
      rw [unescapeLoop, if_pos (by decide), unescapeLoop, if_pos h2, unescapeLoop, if_pos h3, h4, ih, Char.ofNat_toNat]
    · rename_i hn
      show unescapeLoop .plain (c :: (t.flatMap (escapeChar reserved))) = _
      have : c.toNat ≠ 0x25 := by
        intro h
        have h := (isPct c).1 h
        subst h
        apply hn
        have : (isUnreserved '%' || isReserved '%') = false := by decide
        rw [this]; simp
      rw [unescapeLoop, if_neg this, ih]

/-- C35: an escaped octet string is made of URI characters and escapes only. -/
theorem uri_escape_legal (reserved : Char → Bool) (s : Str) (hs : Octets s) : UriText (escapeData reserved s) := by
  unfold escapeData
  induction s with
  | nil => exact .nil
  | cons c t ih =>
    have hc := hs c (by simp)
    have ih := ih (fun d hd => hs d (by simp [hd]))
    rw [List.flatMap_cons, escapeChar]
    split
    · obtain ⟨a, b, h1, h2, h3, h4⟩ := hex2_facts ⟨c.toNat, hc⟩
      simp only at h1
      rw [h1]
      exact .escape a b _ (by rw [← isHex_eq]; exact h2) (by rw [← isHex_eq]; exact h3) ih
    · rename_i hn
      refine .char c _ ?_ ih
      rw [← uriChar_eq]
      simp only [Bool.or_eq_true, Bool.not_eq_true', not_or, Bool.not_eq_false] at hn
      rw [Bool.or_eq_true]
      exact hn.2.symm

/-- C35: the characters chosen as reserved do not occur in the escaped string (unless they are the percent sign or the
hexadecimal digits that escapes are made of). -/
theorem uri_escape_hides (reserved : Char → Bool) (s : Str) (hs : Octets s) (c : Char) (hc : reserved c = true)
    (hp : c ≠ '%') (hx : hexDigit c = false) : c ∉ escapeData reserved s := by
  unfold escapeData
  rw [List.mem_flatMap]
  rintro ⟨d, hd, hm⟩
  rw [escapeChar] at hm
  split at hm
  · obtain ⟨a, b, h1, h2, h3, h4⟩ := hex2_facts ⟨d.toNat, hs d hd⟩
    simp only at h1
    rw [h1] at hm
    simp only [List.mem_cons, List.not_mem_nil, or_false] at hm
    rw [isHex_eq] at h2 h3
    rcases hm with h | h | h
    · exact hp h
    · rw [h, h2] at hx; cases hx
    · rw [h, h3] at hx; cases hx
  · rename_i hn
    simp only [List.mem_cons, List.not_mem_nil, or_false] at hm
    subst hm
    simp [hc] at hn

/-- A name with a space, a slash and an accent, escaped for use as a path segment. -/
example : escapeData (fun c => c = '/') "a b/é".toList = "a%20b%2F%E9".toList ∧ Octets "a b/é".toList := by
  constructor
  · decide
  · unfold Octets; decide

/-! ## C36 Components recompose -/

/-- The components of a parsed reference. -/
def uriComponents (u : URI) : Components :=
  ⟨u.scheme, u.parts.opaquePart, u.parts.authority, u.parts.absPath, u.parts.relPath, u.parts.query, u.fragment⟩

/-- How acceptance splits the text at the fragment. -/
theorem mkURI_ok (o : Str) (u : URI) (h : mkURI o = .ok u) : UriText u.octets ∧
    o = u.octets ++ (u.fragment.elim [] ('#' :: ·)) ∧
    ((∃ s, parseScheme u.octets = some s ∧ u.scheme = some s ∧
        u.parts = parseSchemeSpecificPart (u.octets.drop (s.length + 1))) ∨
     (parseScheme u.octets = none ∧ u.scheme = none ∧ u.parts = parseRelativeURI u.octets)) := by
  obtain ⟨a, b, hab, ha, hl⟩ := uricLoop_split o.length o (Nat.le_refl _) 0
  have hl : parseURIC o = a.length := by rw [parseURIC, hl]; omega
  rw [mkURI] at h
  simp only [hl] at h
  have htake : o.take a.length = a := by rw [hab]; simp
  have hdrop : o.drop a.length = b := by rw [hab]; simp
  rw [htake, hdrop] at h
  have fin : ∀ f, (match parseScheme a with
      | some scheme => (Except.ok ⟨a, f, some scheme, parseSchemeSpecificPart (a.drop (scheme.length + 1))⟩ : Except Err URI)
      | none => .ok ⟨a, f, none, parseRelativeURI a⟩) = .ok u →
      u.octets = a ∧ u.fragment = f ∧ ((∃ s, parseScheme u.octets = some s ∧ u.scheme = some s ∧
        u.parts = parseSchemeSpecificPart (u.octets.drop (s.length + 1))) ∨
     (parseScheme u.octets = none ∧ u.scheme = none ∧ u.parts = parseRelativeURI u.octets)) := by
    intro f hf
    cases hp : parseScheme a with
    | none => rw [hp] at hf; injection hf with hf; subst hf; exact ⟨rfl, rfl, .inr ⟨hp, rfl, rfl⟩⟩
    | some s => rw [hp] at hf; injection hf with hf; subst hf; exact ⟨rfl, rfl, .inl ⟨s, hp, rfl, rfl⟩⟩
  split at h
  · rename_i hlt
    match b, h with
    | c :: t, h =>
      simp only at h
      by_cases hc : c.toNat = 0x23
      · rw [if_pos hc] at h
        obtain ⟨h1, h2, h3⟩ := fin _ h
        refine ⟨by rw [h1]; exact ha, ?_, h3⟩
        rw [h1, h2, hab, (isHash c).1 hc]; rfl
      · rw [if_neg hc] at h
        cases h
    | [], h =>
      rw [hab] at hlt; simp at hlt
  · rename_i hlt
    obtain ⟨h1, h2, h3⟩ := fin _ h
    refine ⟨by rw [h1]; exact ha, ?_, h3⟩
    have : b = [] := by
      rw [hab] at hlt; simp at hlt; exact hlt
    rw [h1, h2, hab, this]; rfl

/-- C36: whenever a reference is accepted, its components put back together are the text that was parsed. -/
theorem uri_recompose (o : Str) (u : URI) (h : mkURI o = .ok u) : (uriComponents u).text = o := by
  obtain ⟨_, h2, h3⟩ := mkURI_ok o u h
  have key : (u.scheme.elim [] (· ++ [':'])) ++ partsText u.parts = u.octets := by
    rcases h3 with ⟨s, h4, h5, h6⟩ | ⟨h4, h5, h6⟩
    · rw [h5, h6, parseSchemeSpecificPart_text]
      obtain ⟨m, t, h7, h8, _, _⟩ := schemeLoop_some _ [] s h4
      simp only [List.nil_append] at h8
      subst h8
      rw [h7]
      simp
    · rw [h5, h6, parseRelativeURI_text]; rfl
  rw [h2, ← key]
  unfold Components.text uriComponents partsText
  simp only [List.append_assoc]

/-- C36: the same for the text of the object (`__str__`). -/
theorem uri_str (o : Str) (u : URI) (h : mkURI o = .ok u) : u.str = o := by
  obtain ⟨_, h2, _⟩ := mkURI_ok o u h
  rw [h2, URI.str]
  cases u.fragment <;> simp

/-- C36: exactly the URI texts, with or without a fragment, are accepted. -/
theorem uri_accepted (o : Str) : (∃ u, mkURI o = .ok u) ↔
    ∃ a, UriText a ∧ (o = a ∨ ∃ f, o = a ++ '#' :: f) := by
  constructor
  · rintro ⟨u, h⟩
    obtain ⟨h1, h2, _⟩ := mkURI_ok o u h
    refine ⟨u.octets, h1, ?_⟩
    cases hf : u.fragment with
    | none => left; rw [hf] at h2; simpa using h2
    | some f => right; exact ⟨f, by rw [hf] at h2; exact h2⟩
  · rintro ⟨a, ha, h⟩
    rcases h with h | ⟨f, h⟩
    · subst h
      rw [mkURI]
      simp only [parseURIC_text o ha, Nat.lt_irrefl, if_false, List.take_length]
      cases parseScheme o <;> exact ⟨_, rfl⟩
    · subst h
      rw [mkURI]
      have : a.length < (a ++ '#' :: f).length := by simp
      simp only [parseURIC_hash a f ha, this, if_true, List.take_left', List.drop_left']
      have h0 : (if '#'.toNat = 0x23 then (Except.ok (some f) : Except Err (Option Str)) else .error .valueError) =
        .ok (some f) := by rw [if_pos (by decide)]
      rw [h0]
      show ∃ u, (match parseScheme a with
        | some scheme => (Except.ok ⟨a, some f, some scheme, parseSchemeSpecificPart (a.drop (scheme.length + 1))⟩ : Except Err URI)
        | none => .ok ⟨a, some f, none, parseRelativeURI a⟩) = .ok u
      cases parseScheme a <;> exact ⟨_, rfl⟩

/-- All components present. -/
example : (mkURI "http://h:8/a/b?q=%20#frag".toList).map uriComponents = .ok
    ⟨some "http".toList, none, some "h:8".toList, some "/a/b".toList, none, some "q=%20".toList, some "frag".toList⟩ := by
  decide +kernel

/-! ## C55 Components have the right shape -/

theorem ssp_slash (t : Str) : parseSchemeSpecificPart ('/' :: t) = parseLoop .slash ['/'] {} t := rfl

theorem rel_slash (t : Str) : parseRelativeURI ('/' :: t) = parseLoop .slash ['/'] {} t := rfl

theorem ssp_opaque (d : Char) (t : Str) (h : d ≠ '/') :
    parseSchemeSpecificPart (d :: t) = { opaquePart := some (d :: t) } := by
  show (if d.toNat = 0x2F then _ else _) = _
  rw [if_neg (by rw [isSlash]; exact h)]

theorem rel_text (r : Str) (h1 : r.head? ≠ some '/') (h2 : '?' ∉ r) (q : Option Str) :
    parseRelativeURI (r ++ qText q) = { relPath := some r, query := q } := by
  match r, h1, h2 with
  | [], _, _ =>
    cases q with
    | none => rfl
    | some q =>
      show parseLoop .query [] { relPath := some [] } q = _
      rw [loop_query]; simp
  | d :: t, h1, h2 =>
    simp only [List.mem_cons, not_or] at h2
    have hd : d ≠ '/' := by intro h; apply h1; rw [h]; rfl
    show (if d.toNat = 0x2F then _ else if d.toNat = 0x3F then _ else _) = _
    rw [if_neg (by rw [isSlash]; exact hd), if_neg (by rw [isQuery]; exact fun h => h2.1 h.symm)]
    exact loop_rel t h2.2 q [d] {} rfl

theorem mkURI_text (a : Str) (ha : UriText a) (f : Option Str) :
    mkURI (a ++ (f.elim [] ('#' :: ·))) =
      match parseScheme a with
      | some scheme => .ok ⟨a, f, some scheme, parseSchemeSpecificPart (a.drop (scheme.length + 1))⟩
      | none => .ok ⟨a, f, none, parseRelativeURI a⟩ := by
  cases f with
  | none =>
    rw [show (none : Option Str).elim [] ('#' :: ·) = [] from rfl, List.append_nil, mkURI]
    simp only [parseURIC_text a ha, Nat.lt_irrefl, if_false, List.take_length]
    rfl
  | some f =>
    rw [show (some f).elim [] ('#' :: ·) = '#' :: f from rfl, mkURI]
    have : a.length < (a ++ '#' :: f).length := by simp
    simp only [parseURIC_hash a f ha, this, if_true, List.take_left', List.drop_left']
    have h0 : (if '#'.toNat = 0x23 then (Except.ok (some f) : Except Err (Option Str)) else .error .valueError) =
      .ok (some f) := by rw [if_pos (by decide)]
    rw [h0]
    rfl

/-- C55, partial: a reference composed of well-shaped components parses into exactly those components, unless it is a
relative path that begins with a colon. -/
theorem uri_parse_composed_partial (c : Components) (hc : c.WF) (hcolon : ∀ r, c.relPath = some r → r.head? ≠ some ':') (a : Str) (ha : UriText a)
    (ht : ({ c with fragment := none } : Components).text = a) :
    mkURI c.text = .ok ⟨a, c.fragment, c.scheme,
      ⟨c.opaquePart, c.authority, c.absPath, c.relPath, c.query⟩⟩ := by
  have htext : c.text = a ++ (c.fragment.elim [] ('#' :: ·)) := by
    rw [← ht]; simp [Components.text]
  rw [htext, mkURI_text a ha]
  obtain ⟨w1, w2, w3, w4, w5, w6, w7⟩ := hc
  obtain ⟨scheme, opq, auth, absP, relP, query, frag⟩ := c
  simp only [Components.text, Option.elim_none, List.append_nil] at ht
  simp only at *
  rw [show query.elim [] ('?' :: ·) = qText query from rfl] at ht
  -- the part after the scheme, when it is not opaque
  cases scheme with
  | some s =>
    have hr : relP = none := by
      cases relP with
      | none => rfl
      | some r => have := (w5 r rfl).2.2.1; cases this
    subst hr
    have hs := parseScheme_name s
      (opq.getD [] ++ (auth.elim [] ('/' :: '/' :: ·)) ++ absP.getD [] ++ qText query) (w1 s rfl)
    have : s ++ ':' :: (opq.getD [] ++ (auth.elim [] ('/' :: '/' :: ·)) ++ absP.getD [] ++
        qText query) = a := by rw [← ht]; simp
    rw [this] at hs
    rw [hs]
    simp only
    have hd : a.drop (s.length + 1) = opq.getD [] ++ (auth.elim [] ('/' :: '/' :: ·)) ++
        absP.getD [] ++ qText query := by
      rw [← this]; simp
    rw [hd]
    cases opq with
    | some o =>
      obtain ⟨_, h2, h3, h4, h5, _, h6⟩ := w2 o rfl
      subst h4; subst h5; subst h6
      match o, h2, h3 with
      | d :: t, _, h3 =>
        have hd : d ≠ '/' := by intro h; apply h3; rw [h]; rfl
        show Except.ok (URI.mk _ _ _ (parseSchemeSpecificPart (d :: t ++ [] ++ [] ++ []))) = _
        simp only [List.append_nil]
        rw [ssp_opaque d t hd]
    | none =>
      cases auth with
      | some au =>
        simp only [Option.getD_none, List.nil_append]
        show Except.ok (URI.mk _ _ _ (parseSchemeSpecificPart ('/' :: '/' :: (au ++ absP.getD [] ++ qText query)))) = _
        rw [ssp_slash, parseLoop, if_pos (by decide), loop_auth au (w3 au rfl) absP
          (fun x hx => ⟨(w4 x hx).1, (w4 x hx).2.1⟩)]
        rfl
      | none =>
        cases absP with
        | none =>
          cases query with
          | none => rfl
          | some q => simp at w7
        | some x =>
          obtain ⟨h1, h2, h3⟩ := w4 x rfl
          have hl := loop_slash x h1 h2 (h3 rfl) query
          match x, h1 with
          | d :: t, h1 =>
            simp only [List.head?_cons, Option.some.injEq] at h1
            subst h1
            show Except.ok (URI.mk _ _ _ (parseSchemeSpecificPart ('/' :: (t ++ qText query)))) = _
            rw [ssp_slash]
            rw [show (('/' :: t).tail = t) from rfl] at hl
            rw [hl]
  | none =>
    have ho : opq = none := by
      cases opq with
      | none => rfl
      | some o => exact absurd rfl (w2 o rfl).1
    subst ho
    simp only [Option.getD_none] at ht
    obtain ⟨w61, w62⟩ := w6 rfl
    cases auth with
    | some au =>
      have hr : relP = none := by
        cases relP with
        | none => rfl
        | some r => have := (w5 r rfl).2.2.2.1; cases this
      subst hr
      have : a = '/' :: '/' :: (au ++ absP.getD [] ++ qText query) := by rw [← ht]; simp
      have hs : parseScheme a = none := by
        rw [this, parseScheme, schemeLoop, if_neg (by decide), if_neg (by decide)]
      rw [hs]
      simp only
      rw [this, rel_slash, parseLoop, if_pos (by decide), loop_auth au (w3 au rfl) absP
          (fun x hx => ⟨(w4 x hx).1, (w4 x hx).2.1⟩)]
      rfl
    | none =>
      cases absP with
      | some x =>
        have hr : relP = none := by
          cases relP with
          | none => rfl
          | some r => have := (w5 r rfl).2.2.2.2; cases this
        subst hr
        obtain ⟨h1, h2, h3⟩ := w4 x rfl
        have hl := loop_slash x h1 h2 (h3 rfl) query
        match x, h1 with
        | d :: t, h1 =>
          simp only [List.head?_cons, Option.some.injEq] at h1
          subst h1
          have : a = '/' :: (t ++ qText query) := by rw [← ht]; simp
          have hs : parseScheme a = none := by
            rw [this, parseScheme, schemeLoop, if_neg (by decide), if_neg (by decide)]
          rw [hs]
          simp only
          rw [this, rel_slash]
          rw [show (('/' :: t).tail = t) from rfl] at hl
          rw [hl]
      | none =>
        cases relP with
        | none => exact absurd rfl (w61 rfl rfl)
        | some r =>
          obtain ⟨h1, h2, _⟩ := w5 r rfl
          replace ht : r ++ qText query = a := by
            rw [← ht]; simp
          have hs : parseScheme a = none := by
            cases hs : parseScheme a with
            | none => rfl
            | some m =>
              exfalso
              obtain ⟨m', t, e1, e2, _, e4⟩ := schemeLoop_some a [] m hs
              rw [← ht] at e1
              -- the colon lies in the path, since a scheme name has no question mark
              have hq' : '?' ∉ m' := by
                rcases e4 rfl with h | h
                · subst h; simp
                · intro hm
                  rw [schemeName_eq] at h
                  match m', hm, h with
                  | d :: m', hm, h =>
                    simp only [Bool.and_eq_true, List.all_eq_true] at h
                    simp only [List.mem_cons] at hm
                    rcases hm with hm | hm
                    · rw [← hm] at h; exact absurd h.1 (by decide)
                    · exact absurd (h.2 _ hm) (by decide)
              have hex : ∃ t', r = m' ++ ':' :: t' := by
                rw [List.append_eq_append_iff] at e1
                rcases e1 with ⟨z, e5, e6⟩ | ⟨z, e5, e6⟩
                · cases z with
                  | nil =>
                    simp only [List.nil_append] at e6
                    cases query with
                    | none => cases e6
                    | some q => injection e6 with e7 _; exact absurd e7 (by decide)
                  | cons d z =>
                    cases query with
                    | none => simp [qText] at e6
                    | some q =>
                      injection e6 with e7 _
                      rw [e5, ← e7] at hq'
                      exact absurd (by simp) hq'
                · cases z with
                  | nil =>
                    simp only [List.nil_append] at e6
                    cases query with
                    | none => cases e6
                    | some q => injection e6 with e7 _; exact absurd e7 (by decide)
                  | cons d z =>
                    injection e6 with e7 _
                    exact ⟨z, by rw [e5, ← e7]⟩
              obtain ⟨t', ht'⟩ := hex
              have := w62 r m' t' rfl ht'
              rcases e4 rfl with h | h
              · subst h
                exact hcolon r rfl (by rw [ht']; rfl)
              · rw [h] at this; cases this
          rw [hs]
          simp only
          rw [← ht, rel_text r h1 h2]

/-- The shape of the components found by the parser, for each mode. -/
def Shaped : Mode → Str → Parts → Prop
  | .slash, _, p => p = {}
  | .auth, acc, p => p = {} ∧ '/' ∉ acc ∧ '?' ∉ acc
  | .path, acc, p => p.opaquePart = none ∧ p.absPath = none ∧ p.relPath = none ∧ p.query = none ∧
      (∀ a, p.authority = some a → '/' ∉ a ∧ '?' ∉ a) ∧ acc.head? = some '/' ∧ '?' ∉ acc ∧
      (p.authority = none → 2 ≤ acc.length ∧ ∀ t, acc ≠ '/' :: '/' :: t)
  | .rel, acc, p => p = {} ∧ acc.head? ≠ some '/' ∧ '?' ∉ acc ∧ acc ≠ []
  | .query, _, p => p.opaquePart = none ∧ (∀ a, p.authority = some a → '/' ∉ a ∧ '?' ∉ a) ∧
      (∀ x, p.absPath = some x → x.head? = some '/' ∧ '?' ∉ x ∧ (p.authority = none → ∀ t, x ≠ '/' :: '/' :: t)) ∧
      (∀ x, p.relPath = some x → x.head? ≠ some '/' ∧ '?' ∉ x ∧ p.authority = none ∧ p.absPath = none) ∧
      (p.authority ≠ none ∨ p.absPath ≠ none ∨ p.relPath ≠ none)

theorem parseLoop_shaped (s : Str) : ∀ (m : Mode) (acc : Str) (p : Parts), Shaped m acc p →
    Shaped .query [] (parseLoop m acc p s) := by
  induction s with
  | nil =>
    intro m acc p h
    cases m <;> simp only [Shaped] at h <;> rw [parseLoop]
    · subst h; simp [Shaped]
    · obtain ⟨rfl, h⟩ := h
      simp only [Shaped]; simp [h]
    · obtain ⟨h1, h2, h3, h4, h5, h6, h7, h8⟩ := h
      simp only [Shaped]
      refine ⟨h1, h5, ?_, ?_, by simp⟩
      · rintro x hx; injection hx with hx; subst hx; exact ⟨h6, h7, fun h => (h8 h).2⟩
      · intro x hx; rw [h3] at hx; cases hx
    · obtain ⟨rfl, h⟩ := h
      simp only [Shaped]; simp [h.1, h.2.1]
    · exact h
  | cons c t ih =>
    intro m acc p h
    cases m
    · simp only [Shaped] at h; subst h
      rw [parseLoop]
      split
      · exact ih _ _ _ (by simp [Shaped])
      · rename_i hs
        split
        · exact ih _ _ _ (by simp [Shaped])
        · rename_i hq
          apply ih
          have hs : c ≠ '/' := fun h => hs ((isSlash c).2 h)
          have hq : '?' ≠ c := fun h => hq ((isQuery c).2 h.symm)
          simp [Shaped, hs, hq]
    · obtain ⟨rfl, h1, h2⟩ := h
      rw [parseLoop]
      split
      · exact ih _ _ _ (by simp [Shaped, h1, h2])
      · rename_i hs
        split
        · exact ih _ _ _ (by simp [Shaped, h1, h2])
        · rename_i hq
          apply ih
          have hs : '/' ≠ c := fun h => hs ((isSlash c).2 h.symm)
          have hq : '?' ≠ c := fun h => hq ((isQuery c).2 h.symm)
          simp [Shaped, hs, hq, h1, h2]
    · obtain ⟨h1, h2, h3, h4, h5, h6, h7, h8⟩ := h
      rw [parseLoop]
      split
      · apply ih
        refine ⟨h1, h5, ?_, ?_, by simp⟩
        · rintro x hx; injection hx with hx; subst hx; exact ⟨h6, h7, fun h => (h8 h).2⟩
        · intro x hx; simp only [h3] at hx; cases hx
      · rename_i hq
        have hq : '?' ≠ c := fun h => hq ((isQuery c).2 h.symm)
        apply ih
        refine ⟨h1, h2, h3, h4, h5, ?_, by simp [h7, hq], ?_⟩
        · match acc, h6 with
          | x :: acc, h6 => exact h6
        · intro ha
          obtain ⟨h9, h10⟩ := h8 ha
          refine ⟨by simp; omega, ?_⟩
          match acc, h9, h10 with
          | x :: y :: acc, _, h10 =>
            intro t ht
            injection ht with e1 ht; injection ht with e2 ht
            exact h10 acc (by rw [e1, e2])
    · obtain ⟨rfl, h1, h2, h3⟩ := h
      rw [parseLoop]
      split
      · exact ih _ _ _ (by simp [Shaped, h1, h2])
      · rename_i hq
        have hq : '?' ≠ c := fun h => hq ((isQuery c).2 h.symm)
        apply ih
        refine ⟨rfl, ?_, by simp [h2, hq], by simp⟩
        match acc, h1, h3 with
        | x :: acc, h1, _ => exact h1
    · rw [parseLoop]; exact ih _ _ _ h

theorem parseLoop_noRel (s : Str) : ∀ (m : Mode) (acc : Str) (p : Parts), m ≠ .rel → p.relPath = none →
    (parseLoop m acc p s).relPath = none := by
  induction s with
  | nil => intro m acc p hm hp; cases m <;> first | exact absurd rfl hm | exact hp
  | cons c t ih =>
    intro m acc p hm hp
    cases m <;> rw [parseLoop]
    · split
      · exact ih _ _ _ (by decide) hp
      · split <;> exact ih _ _ _ (by decide) hp
    · split
      · exact ih _ _ _ (by decide) hp
      · split <;> exact ih _ _ _ (by decide) hp
    · split <;> exact ih _ _ _ (by decide) hp
    · exact absurd rfl hm
    · exact ih _ _ _ (by decide) hp

/-- C55, partial: the components of an accepted reference have the shape of the specification: each ends at its
delimiter and they exclude each other as they should.  References that begin with a colon are excluded. -/
theorem uri_components_shape_partial (o : Str) (u : URI) (h : mkURI o = .ok u) (hcolon : o.head? ≠ some ':') :
    (uriComponents u).WF := by
  obtain ⟨h1, h2, h3⟩ := mkURI_ok o u h
  have hcolon : u.octets.head? ≠ some ':' := by
    intro hc
    apply hcolon
    rw [h2]
    match u.octets, hc with
    | c :: t, hc => exact hc
  rcases h3 with ⟨s, h4, h5, h6⟩ | ⟨h4, h5, h6⟩
  · obtain ⟨m, t, e1, e2, _, e4⟩ := schemeLoop_some _ [] s h4
    simp only [List.nil_append] at e2
    subst e2
    have hs : schemeName s = true := by
      rcases e4 rfl with e | e
      · subst e; rw [e1] at hcolon; exact absurd rfl hcolon
      · exact e
    have hp : u.parts = parseSchemeSpecificPart t := by rw [h6, e1]; simp
    match t, hp with
    | [], hp =>
      have hp : u.parts = {} := hp
      exact ⟨by simp [uriComponents, h5, hs], by simp [uriComponents, hp], by simp [uriComponents, hp],
        by simp [uriComponents, hp], by simp [uriComponents, hp], by simp [uriComponents, h5], by simp [uriComponents, hp]⟩
    | d :: t, hp =>
      by_cases hd : d = '/'
      · subst hd
        rw [ssp_slash] at hp
        have sh := parseLoop_shaped t .slash ['/'] {} (by simp [Shaped])
        rw [← hp] at sh
        obtain ⟨s1, s2, s3, s4, s5⟩ := sh
        have hr : u.parts.relPath = none := by
          have := parseLoop_noRel t .slash ['/'] {} (by decide) rfl
          rw [← hp] at this; exact this
        exact ⟨by simp [uriComponents, h5, hs], by simp [uriComponents, s1], s2, s3,
          by simp [uriComponents, hr], by simp [uriComponents, h5], fun _ => s5⟩
      · rw [ssp_opaque d t hd] at hp
        exact ⟨by simp [uriComponents, h5, hs], by simp [uriComponents, hp, hd, h5], by simp [uriComponents, hp],
          by simp [uriComponents, hp], by simp [uriComponents, hp], by simp [uriComponents, h5], by simp [uriComponents, hp]⟩
  · have sh : Shaped .query [] u.parts := by
      rw [h6]
      match u.octets with
      | [] => simp [Shaped, parseRelativeURI]
      | d :: t =>
        by_cases hd : d = '/'
        · subst hd; rw [rel_slash]; exact parseLoop_shaped _ _ _ _ (by simp [Shaped])
        · show Shaped .query [] (if d.toNat = 0x2F then _ else if d.toNat = 0x3F then _ else _)
          rw [if_neg (by rw [isSlash]; exact hd)]
          split
          · exact parseLoop_shaped _ _ _ _ (by simp [Shaped])
          · rename_i hq
            have hq : '?' ≠ d := fun h => hq ((isQuery d).2 h.symm)
            exact parseLoop_shaped _ _ _ _ (by simp [Shaped, hd, hq])
    obtain ⟨s1, s2, s3, s4, s5⟩ := sh
    refine ⟨by simp [uriComponents, h5], by simp [uriComponents, s1], s2, s3, ?_, ?_, fun _ => s5⟩
    · intro p hp
      obtain ⟨a, b, c, d⟩ := s4 p hp
      exact ⟨a, b, h5, c, d⟩
    · intro _
      refine ⟨?_, ?_⟩
      · intro a b c
        rcases s5 with s5 | s5 | s5
        · exact s5 a
        · exact s5 b
        · exact s5 c
      · intro p s t hp hps
        obtain ⟨_, _, ha, hb⟩ := s4 p hp
        have hoct : u.octets = p ++ qText u.parts.query := by
          have := parseRelativeURI_text u.octets
          rw [← h6] at this
          rw [← this, partsText, s1, ha, hb, show u.parts.relPath = some p from hp]; rfl
        cases hn : schemeName s with
        | false => rfl
        | true =>
          have := parseScheme_name s (t ++ qText u.parts.query) hn
          rw [hoct, hps] at h4
          simp only [List.append_assoc, List.cons_append] at h4
          rw [h4] at this; cases this

/-- C55 is refuted: a reference that begins with a colon gets an empty scheme. -/
theorem uri_components_shape_fails : ∃ u, mkURI ":x".toList = .ok u ∧ u.scheme = some [] ∧ ¬ (uriComponents u).WF := by
  refine ⟨⟨":x".toList, none, some [], { opaquePart := some ['x'] }⟩, by decide +kernel, rfl, ?_⟩
  intro h
  have := h.scheme [] rfl
  cases this

end Verif.Props
