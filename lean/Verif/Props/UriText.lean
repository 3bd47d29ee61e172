import Verif.Props.Uri

/-!
# Unescaping, canonical text, server components, parameters and unicode URIs (C53, C54, C56, C57, C58)
-/

namespace Verif.Props

open Verif Verif.Uri Verif.Spec

set_option linter.unusedVariables false

/-! ## C53 Unescaping replaces the escapes and nothing else -/

theorem decode_escape (a b : Char) (t : Str) (ha : hexDigit a = true) (hb : hexDigit b = true) :
    decode ('%' :: a :: b :: t) = Char.ofNat (16 * hexDigitVal a + hexDigitVal b) :: decode t := by
  rw [decode.eq_def]; simp [ha, hb]

theorem decode_char (c : Char) (t : Str) (h : c ≠ '%') : decode (c :: t) = c :: decode t := by
  rw [decode.eq_def]
  split
  · rename_i heq; injection heq with h1 _; exact absurd h1 h
  · rename_i heq; injection heq with h1 h2; rw [h1, h2]
  · rename_i heq; cases heq

theorem decode_lone (c : Char) (t : Str) (h : hexDigit c = false) (hc : c ≠ '%') :
    decode ('%' :: c :: t) = '%' :: c :: decode t := by
  rw [← decode_char c t hc]
  match t with
  | [] => rw [decode.eq_def]; simp
  | d :: t => rw [decode.eq_def]; simp [h]

/-- C53, partial: unescaping gives the octets the text stands for if every percent sign begins an escape or is followed
by a character that is neither a hexadecimal digit nor a percent sign.  Missing: text with other percent signs. -/
theorem uri_unescape_partial (s : Str) (hs : Percents s) : unescapeData s = decode s := by
  unfold unescapeData
  induction hs with
  | nil => rfl
  | char c t hc _ ih =>
    rw [unescapeLoop, if_neg (by rw [isPct]; exact hc), ih, decode_char c t hc]
  | escape a b t ha hb _ ih =>
    rw [unescapeLoop, if_pos (by decide), unescapeLoop, if_pos (by rw [isHex_eq]; exact ha), unescapeLoop,
      if_pos (by rw [isHex_eq]; exact hb), ih, decode_escape a b t ha hb, digitsVal_eq a b (by rw [isHex_eq]; exact ha)
      (by rw [isHex_eq]; exact hb)]
  | lone c t hc hp _ ih =>
    rw [unescapeLoop, if_pos (by decide), unescapeLoop, if_neg (by rw [isHex_eq, hc]; decide), ih, decode_lone c t hc hp]

/-- C53 is refuted: a character after a percent sign and one hexadecimal digit is dropped, and so is an incomplete
escape at the end; an escape after a percent sign is not recognised. -/
theorem uri_unescape_fails : unescapeData "%4g".toList = "%4".toList ∧ decode "%4g".toList = "%4g".toList ∧
    unescapeData "100%".toList = "100".toList ∧ decode "100%".toList = "100%".toList ∧
    unescapeData "%%41".toList = "%%41".toList ∧ decode "%%41".toList = "%A".toList := by decide

/-- A path with an escape and a lone percent sign. -/
example : Percents "a%20b% c".toList ∧ unescapeData "a%20b% c".toList = "a b% c".toList := by
  refine ⟨?_, by decide⟩
  exact .char _ _ (by decide) (.escape _ _ _ (by decide) (by decide) (.char _ _ (by decide) (.lone _ _ (by decide)
    (by decide) (.char _ _ (by decide) .nil))))

/-! ## C56 Canonical text -/

theorem text_escapes {s : Str} (hs : UriText s) : Escapes s := by
  induction hs with
  | nil => exact .nil
  | char c t hc _ ih => exact .char c t (by rintro rfl; exact absurd hc (by decide)) ih
  | escape a b t ha hb _ ih => exact .escape a b t ha hb ih

theorem canon_char (c : Char) (t r : Str) (hc : c ≠ '%') (h : canonicalizeData t = .ok r) : canonicalizeData (c :: t) =
    .ok (if !(isUnreserved c || isReserved c) then '%' :: hex2 c.toNat ++ r else c :: r) := by
  rw [canonicalizeData.eq_def]
  simp only [if_neg hc, h]
  rfl

theorem canon_char_error (c : Char) (t : Str) (e : Err) (hc : c ≠ '%') (h : canonicalizeData t = .error e) :
    canonicalizeData (c :: t) = .error e := by
  rw [canonicalizeData.eq_def]
  simp only [if_neg hc, h]
  rfl

theorem canon_escape (a b : Char) (t r : Str) (ha : isHex a = true) (hb : isHex b = true)
    (h : canonicalizeData t = .ok r) : canonicalizeData ('%' :: a :: b :: t) =
    .ok (if isUnreserved (Char.ofNat (Py.digitsVal 16 [a, b])) then Char.ofNat (Py.digitsVal 16 [a, b]) :: r
      else '%' :: a :: b :: r) := by
  rw [canonicalizeData.eq_def]
  simp only [if_true, ha, hb, Bool.and_true, h]
  rfl

theorem canon_escape_error (a b : Char) (t : Str) (e : Err) (ha : isHex a = true) (hb : isHex b = true)
    (h : canonicalizeData t = .error e) : canonicalizeData ('%' :: a :: b :: t) = .error e := by
  rw [canonicalizeData.eq_def]
  simp only [if_true, ha, hb, Bool.and_true, h]
  rfl

/-- C56: for octet text whose percent signs begin escapes, the canonical form exists, is legal URI text, stands for the
same octets, and is its own canonical form. -/
theorem uri_canonical (s : Str) (hs : Escapes s) (ho : Octets s) : ∃ r, canonicalizeData s = .ok r ∧ UriText r ∧
    decode r = decode s ∧ canonicalizeData r = .ok r := by
  induction hs with
  | nil => exact ⟨[], rfl, .nil, rfl, rfl⟩
  | char c t hc _ ih =>
    obtain ⟨r, h1, h2, h3, h4⟩ := ih (fun d hd => ho d (by simp [hd]))
    rw [canon_char c t r hc h1]
    by_cases hu : (isUnreserved c || isReserved c) = true
    · refine ⟨c :: r, by rw [hu]; rfl, .char c r ?_ h2, ?_, ?_⟩
      · rw [← uriChar_eq, Bool.or_comm]; exact hu
      · rw [decode_char c r hc, decode_char c t hc, h3]
      · rw [canon_char c r r hc h4, hu]; rfl
    · have hu' : (isUnreserved c || isReserved c) = false := by simpa using hu
      obtain ⟨a, b, e1, e2, e3, e4⟩ := hex2_facts ⟨c.toNat, ho c (by simp)⟩
      simp only at e1 e4
      have e2' : hexDigit a = true := by rw [← isHex_eq]; exact e2
      have e3' : hexDigit b = true := by rw [← isHex_eq]; exact e3
      refine ⟨'%' :: a :: b :: r, by rw [hu', e1]; rfl, .escape a b r e2' e3' h2, ?_, ?_⟩
      · rw [decode_escape a b r e2' e3', decode_char c t hc, h3, ← digitsVal_eq a b e2 e3, e4, Char.ofNat_toNat]
      · rw [canon_escape a b r r e2 e3 h4, e4, Char.ofNat_toNat]
        rw [Bool.or_eq_false_iff] at hu'
        rw [hu'.1]; rfl
  | escape a b t ha hb _ ih =>
    obtain ⟨r, h1, h2, h3, h4⟩ := ih (fun d hd => ho d (by simp [hd]))
    have ha' : isHex a = true := by rw [isHex_eq]; exact ha
    have hb' : isHex b = true := by rw [isHex_eq]; exact hb
    rw [canon_escape a b t r ha' hb' h1]
    by_cases hu : isUnreserved (Char.ofNat (Py.digitsVal 16 [a, b])) = true
    · have hd' : Char.ofNat (Py.digitsVal 16 [a, b]) ≠ '%' := by
        intro h; rw [h] at hu; exact absurd hu (by decide)
      refine ⟨Char.ofNat (Py.digitsVal 16 [a, b]) :: r, by rw [if_pos hu], .char _ r ?_ h2, ?_, ?_⟩
      · rw [← uriChar_eq, hu, Bool.or_true]
      · rw [decode_char _ r hd', decode_escape a b t ha hb, digitsVal_eq a b ha' hb', h3]
      · rw [canon_char _ r r hd' h4, hu]; rfl
    · refine ⟨'%' :: a :: b :: r, by rw [if_neg hu], .escape a b r ha hb h2, ?_, ?_⟩
      · rw [decode_escape a b r ha hb, decode_escape a b t ha hb, h3]
      · rw [canon_escape a b r r ha' hb' h4, if_neg hu]

/-- C56: in the canonical form no character that may stand for itself everywhere (a letter, a digit or a mark) is
escaped. -/
theorem uri_canonical_plain (s : Str) (hs : Escapes s) (ho : Octets s) (r : Str) (h : canonicalizeData s = .ok r)
    (x y : Str) (a b : Char) (hr : r = x ++ '%' :: a :: b :: y) :
    isUnreserved (Char.ofNat (16 * hexDigitVal a + hexDigitVal b)) = false := by
  obtain ⟨r', h1, h2, h3, h4⟩ := uri_canonical s hs ho
  rw [h] at h1
  injection h1 with h1
  subst h1
  clear h hs ho h3
  induction h2 generalizing x with
  | nil => cases x <;> cases hr
  | char c t hc ht ih =>
    have hc' : c ≠ '%' := by rintro rfl; exact absurd hc (by decide)
    cases ht' : canonicalizeData t with
    | error e => rw [canon_char_error c t e hc' ht'] at h4; cases h4
    | ok t' =>
      rw [← uriChar_eq, Bool.or_comm] at hc
      rw [canon_char c t t' hc' ht', hc] at h4
      injection h4 with h4
      injection h4 with _ h4
      rw [h4] at ht'
      cases x with
      | nil => injection hr with h5 _; exact absurd h5 hc'
      | cons d x => injection hr with _ h6; exact ih x h6 ht'
  | escape a' b' t ha hb ht ih =>
    have ha' : isHex a' = true := by rw [isHex_eq]; exact ha
    have hb' : isHex b' = true := by rw [isHex_eq]; exact hb
    cases ht' : canonicalizeData t with
    | error e => rw [canon_escape_error a' b' t e ha' hb' ht'] at h4; cases h4
    | ok t' =>
      rw [canon_escape a' b' t t' ha' hb' ht'] at h4
      by_cases hu : isUnreserved (Char.ofNat (Py.digitsVal 16 [a', b'])) = true
      · rw [if_pos hu] at h4
        have h5 := (List.cons.inj (Except.ok.inj h4)).1
        rw [h5] at hu
        exact absurd hu (by decide)
      · rw [if_neg hu] at h4
        have h4 := (List.cons.inj (List.cons.inj (List.cons.inj (Except.ok.inj h4)).2).2).2
        rw [h4] at ht'
        match x, hr with
        | [], hr =>
          injection hr with _ hr; injection hr with h5 hr; injection hr with h6 _
          rw [← h5, ← h6, ← digitsVal_eq a' b' ha' hb']
          simpa using hu
        | [_], hr => injection hr with _ hr; injection hr with h5 _; rw [h5] at ha; exact absurd ha (by decide)
        | [_, _], hr =>
          injection hr with _ hr; injection hr with _ hr; injection hr with h5 _
          rw [h5] at hb; exact absurd hb (by decide)
        | _ :: _ :: _ :: x, hr =>
          injection hr with _ hr; injection hr with _ hr; injection hr with _ hr
          exact ih x hr ht'

/-- Escaped letters are unescaped and a space is escaped. -/
example : canonicalizeData "%41 %2f".toList = .ok "A%20%2f".toList := by decide +kernel

/-! ## C54 Server components -/

theorem server_start (h : Str) (hh : ':' ∉ h ∧ '@' ∉ h) (rest : Str) (u v : Option Str) : ∀ all acc,
    serverLoop .start all acc u v (h ++ rest) = serverLoop .start (all ++ h) (if h = [] then acc else []) u v rest := by
  induction h with
  | nil => intro all acc; simp
  | cons c t ih =>
    intro all acc
    simp only [List.mem_cons, not_or] at hh
    show serverLoop .start all acc u v (c :: (t ++ rest)) = _
    rw [serverLoop, if_neg (by rw [isAt]; exact fun h => hh.2.1 h.symm),
      if_neg (by rw [isColon]; exact fun h => hh.1.1 h.symm), ih ⟨hh.1.2, hh.2.2⟩]
    simp

theorem server_host (h : Str) (hh : ':' ∉ h) (rest : Str) (u v : Option Str) : ∀ all acc,
    serverLoop .host all acc u v (h ++ rest) = serverLoop .host (all ++ h) (acc ++ h) u v rest := by
  induction h with
  | nil => intro all acc; simp
  | cons c t ih =>
    intro all acc
    simp only [List.mem_cons, not_or] at hh
    show serverLoop .host all acc u v (c :: (t ++ rest)) = _
    rw [serverLoop, if_neg (by rw [isColon]; exact fun h => hh.1 h.symm), ih hh.2]
    simp

theorem server_port (p : Str) (hp : p.all Uri.isDigit = true) (u v : Option Str) : ∀ all acc,
    serverLoop .port all acc u v p = (u, v, some (acc ++ p)) := by
  induction p with
  | nil => intro all acc; simp [serverLoop]
  | cons c t ih =>
    intro all acc
    rw [List.all_cons, Bool.and_eq_true] at hp
    have hc : ¬ (c.toNat = 0x40) := by
      have := hp.1
      unfold Uri.isDigit at this
      simp only [Bool.and_eq_true, decide_eq_true_eq] at this
      omega
    rw [serverLoop, if_neg (fun h => hc h.1), if_neg (by simp [hp.1]), ih hp.2]
    simp

/-- After user information, a host and an optional port. -/
theorem server_hostport (h : Str) (hh : ':' ∉ h) (p : Option Str) (hp : ∀ x, p = some x → x.all Uri.isDigit = true)
    (u v : Option Str) (all : Str) :
    serverLoop .host all [] u v (h ++ p.elim [] (':' :: ·)) = (u, some h, p) := by
  rw [server_host h hh]
  cases p with
  | none => simp [serverLoop]
  | some x =>
    show serverLoop .host (all ++ h) ([] ++ h) u v (':' :: x) = _
    rw [serverLoop, if_pos (by decide), server_port x (hp x rfl)]; simp

theorem server_user (i : Str) (hi : '@' ∉ i) (h : Str) (hh : ':' ∉ h) (p : Option Str)
    (hp : ∀ x, p = some x → x.all Uri.isDigit = true) : ∀ (m : SMode) (hm : m ≠ .host) (all acc : Str) (v : Option Str),
    serverLoop m all acc none v (i ++ '@' :: (h ++ p.elim [] (':' :: ·))) = (some (all ++ i), some h, p) := by
  induction i with
  | nil =>
    intro m hm all acc v
    show serverLoop m all acc none v ('@' :: (h ++ p.elim [] (':' :: ·))) = _
    cases m with
    | host => exact absurd rfl hm
    | start => rw [serverLoop, if_pos (by decide), server_hostport h hh p hp]; simp
    | port => rw [serverLoop, if_pos ⟨by decide, rfl⟩, server_hostport h hh p hp]; simp
    | user => rw [serverLoop, if_pos (by decide), server_hostport h hh p hp]; simp
  | cons c t ih =>
    intro m hm all acc v
    simp only [List.mem_cons, not_or] at hi
    have hc : ¬ c.toNat = 0x40 := by rw [isAt]; exact fun h => hi.1 h.symm
    show serverLoop m all acc none v (c :: (t ++ '@' :: (h ++ p.elim [] (':' :: ·)))) = _
    cases m with
    | host => exact absurd rfl hm
    | start =>
      rw [serverLoop, if_neg hc]
      split
      · rw [ih hi.2 _ (by decide)]; simp
      · rw [ih hi.2 _ (by decide)]; simp
    | port =>
      rw [serverLoop, if_neg (fun h => hc h.1)]
      split
      · rw [if_pos rfl, ih hi.2 _ (by decide)]; simp
      · rw [ih hi.2 _ (by decide)]; simp
    | user => rw [serverLoop, if_neg hc, ih hi.2 _ (by decide)]; simp

/-- The text of a server authority. -/
def serverText (userinfo : Option Str) (host : Str) (port : Option Str) : Str :=
  userinfo.elim [] (· ++ ['@']) ++ host ++ port.elim [] (':' :: ·)

/-- C54, partial: a server authority with a numeric port is split into the user information, host and port it is made
of.  Missing: authorities of another form. -/
theorem uri_server_partial (userinfo : Option Str) (host : Str) (port : Option Str)
    (hu : ∀ u, userinfo = some u → '@' ∉ u) (hh : ':' ∉ host ∧ '@' ∉ host)
    (hp : ∀ p, port = some p → p.all Uri.isDigit = true) :
    splitServer (some (serverText userinfo host port)) = (userinfo, some host, port) := by
  unfold splitServer
  simp only
  cases userinfo with
  | some u =>
    have : serverText (some u) host port = u ++ '@' :: (host ++ port.elim [] (':' :: ·)) := by simp [serverText]
    rw [this, if_pos (by simp), server_user u (hu u rfl) host hh.1 port hp _ (by decide)]
    simp
  | none =>
    have : serverText none host port = host ++ port.elim [] (':' :: ·) := by simp [serverText]
    rw [this]
    split
    · rw [server_start host hh]
      cases port with
      | none => simp [serverLoop]
      | some p =>
        show serverLoop .start _ _ none none (':' :: p) = _
        rw [serverLoop, if_neg (by decide), if_pos (by decide), server_port p (hp p rfl)]; simp
    · rename_i hne
      have hne : host ++ port.elim [] (':' :: ·) = [] := Decidable.byContradiction hne
      rw [List.append_eq_nil_iff] at hne
      cases port with
      | none => rw [hne.1]
      | some p => exact absurd hne.2 (by simp)

/-- C54 is refuted: the components of other authorities do not make up the authority again.  After user information the
text from the first character of the port that is not a digit is lost; without a commercial at, an authority with
something else than digits after a colon is taken for user information and the host is empty. -/
theorem uri_server_fails :
    splitServer (some "u@h:12x".toList) = (some "u".toList, some "h".toList, some "12".toList) ∧
    splitServer (some "host:http".toList) = (some "host:http".toList, some [], none) := by decide

example : splitServer (some "me:pw@host:8080".toList) = (some "me:pw".toList, some "host".toList, some "8080".toList) := by
  decide

/-! ## C57 Path segment parameters -/

theorem paramLoop_join (t : Str) : ∀ acc, Py.join ';' (paramLoop acc t) = acc ++ t ∧ paramLoop acc t ≠ [] ∧
    (';' ∉ acc → ∀ p ∈ paramLoop acc t, ';' ∉ p) := by
  induction t with
  | nil => intro acc; simp [paramLoop, Py.join]
  | cons c t ih =>
    intro acc
    rw [paramLoop]
    split
    · rename_i hc
      obtain ⟨h1, h2, h3⟩ := ih []
      refine ⟨?_, by simp, ?_⟩
      · match hp : paramLoop [] t, h2 with
        | p :: ps, _ =>
          rw [hp] at h1
          rw [Py.join, h1, (isSemi c).1 hc]; rfl
      · intro ha p hp
        simp only [List.mem_cons] at hp
        rcases hp with hp | hp
        · rw [hp]; exact ha
        · exact h3 (by simp) p hp
    · rename_i hc
      have hc : ';' ≠ c := fun h => hc ((isSemi c).2 h.symm)
      obtain ⟨h1, h2, h3⟩ := ih (acc ++ [c])
      refine ⟨by rw [h1]; simp, h2, fun ha => h3 (by simp [ha, hc])⟩

/-- C57: a path segment is its name and its parameters joined by semicolons, and none of those contains a semicolon. -/
theorem uri_segment_params (s : Str) : Py.join ';' ((splitPathSegment s).1 :: (splitPathSegment s).2) = s ∧
    ';' ∉ (splitPathSegment s).1 ∧ ∀ p ∈ (splitPathSegment s).2, ';' ∉ p := by
  have key : ∀ t acc, ';' ∉ acc → Py.join ';' ((segmentLoop acc t).1 :: (segmentLoop acc t).2) = acc ++ t ∧
      ';' ∉ (segmentLoop acc t).1 ∧ ∀ p ∈ (segmentLoop acc t).2, ';' ∉ p := by
    intro t
    induction t with
    | nil => intro acc h; simp [segmentLoop, Py.join, h]
    | cons c t ih =>
      intro acc h
      rw [segmentLoop]
      split
      · rename_i hc
        obtain ⟨h1, h2, h3⟩ := paramLoop_join t []
        refine ⟨?_, h, h3 (by simp)⟩
        show Py.join ';' (acc :: paramLoop [] t) = _
        match hp : paramLoop [] t, h2 with
        | p :: ps, _ =>
          rw [hp] at h1
          rw [Py.join, h1, (isSemi c).1 hc]; rfl
      · rename_i hc
        have hc : ';' ≠ c := fun h => hc ((isSemi c).2 h.symm)
        have := ih (acc ++ [c]) (by simp [h, hc])
        simpa using this
  exact key s [] (by simp)

example : splitPathSegment "Nero;LHR.T2;curr=%a3".toList = ("Nero".toList, ["LHR.T2".toList, "curr=%a3".toList]) := by
  decide

/-! ## C58 Unicode URIs -/

theorem utf8_bytes (c : Char) : ∀ b ∈ utf8Bytes c.toNat, b < 256 := by
  have hc : c.toNat < 0x110000 := by
    have := c.valid
    simp only [UInt32.isValidChar, Nat.isValidChar] at this
    have h : c.toNat = c.val.toNat := rfl
    omega
  intro b hb
  unfold utf8Bytes at hb
  split at hb
  · simp only [List.mem_cons, List.not_mem_nil, or_false] at hb; omega
  · split at hb
    · simp only [List.mem_cons, List.not_mem_nil, or_false] at hb; omega
    · simp only [List.mem_cons, List.not_mem_nil, or_false] at hb; omega

theorem utf8_bytes_eq (c : Char) (h : 0x7F < c.toNat) :
    utf8Bytes c.toNat = (String.utf8EncodeChar c).map UInt8.toNat := by
  have hc : c.toNat < 0x110000 := by
    have := c.valid
    simp only [UInt32.isValidChar, Nat.isValidChar] at this
    have h : c.toNat = c.val.toNat := rfl
    omega
  have hv : c.val.toNat = c.toNat := rfl
  unfold utf8Bytes String.utf8EncodeChar
  simp only [hv]
  generalize c.toNat = n at *
  rw [if_neg (by omega : ¬ n ≤ 0x7f)]
  by_cases h1 : n < 0x800
  · rw [if_pos h1, if_pos (by omega)]
    simp only [List.map_cons, List.map_nil, UInt8.toNat_ofNat']
    simp only [List.cons.injEq, and_true]
    omega
  · rw [if_neg h1, if_neg (by omega : ¬ n ≤ 0x7ff)]
    by_cases h2 : n < 0x10000
    · rw [if_pos h2, if_pos (by omega)]
      simp only [List.map_cons, List.map_nil, UInt8.toNat_ofNat', List.cons.injEq, and_true]
      omega
    · rw [if_neg h2, if_neg (by omega : ¬ n ≤ 0xffff)]
      simp only [List.map_cons, List.map_nil, UInt8.toNat_ofNat', List.cons.injEq, and_true]
      omega

/-- C58: a URI with any characters above U+007F is turned into legal URI text, provided its other characters are URI
characters, and the text stands for the UTF-8 encoding of the original. -/
theorem uri_unicode (s : Str) (hs : ∀ c ∈ s, c.toNat ≤ 0x7F → uriChar c = true) :
    UriText (encodeUnicodeURI s) ∧ decode (encodeUnicodeURI s) =
      s.flatMap (fun c => (String.utf8EncodeChar c).map fun b => Char.ofNat b.toNat) := by
  have hspec : ∀ c : Char, (String.utf8EncodeChar c).map (fun b => Char.ofNat b.toNat) =
      if c.toNat ≤ 0x7F then [c] else (utf8Bytes c.toNat).map Char.ofNat := by
    intro c
    split
    · next h =>
      unfold String.utf8EncodeChar
      have hv : c.val.toNat = c.toNat := rfl
      simp only [hv]
      rw [if_pos h]
      simp only [List.map_cons, List.map_nil, UInt8.toNat_ofNat']
      rw [Nat.mod_eq_of_lt (by omega), Char.ofNat_toNat]
    · next h => rw [utf8_bytes_eq c (by omega), List.map_map]; rfl
  simp only [hspec]
  have hex : ∀ (l : List Nat) (r : Str), (∀ b ∈ l, b < 256) → UriText r →
      UriText (l.flatMap (fun b => '%' :: hex2 b) ++ r) ∧
      decode (l.flatMap (fun b => '%' :: hex2 b) ++ r) = l.map Char.ofNat ++ decode r := by
    intro l r hl hr
    induction l with
    | nil => exact ⟨hr, rfl⟩
    | cons b l ih =>
      obtain ⟨h1, h2⟩ := ih (fun x hx => hl x (by simp [hx]))
      obtain ⟨x, y, e1, e2, e3, e4⟩ := hex2_facts ⟨b, hl b (by simp)⟩
      simp only at e1 e4
      have e2' : hexDigit x = true := by rw [← isHex_eq]; exact e2
      have e3' : hexDigit y = true := by rw [← isHex_eq]; exact e3
      rw [List.flatMap_cons, e1]
      show UriText ('%' :: x :: y :: (l.flatMap (fun b => '%' :: hex2 b) ++ r)) ∧
        decode ('%' :: x :: y :: (l.flatMap (fun b => '%' :: hex2 b) ++ r)) = _
      refine ⟨.escape x y _ e2' e3' h1, ?_⟩
      rw [decode_escape x y _ e2' e3', h2, ← digitsVal_eq x y e2 e3, e4]; rfl
  unfold encodeUnicodeURI
  induction s with
  | nil => exact ⟨.nil, rfl⟩
  | cons c t ih =>
    obtain ⟨h1, h2⟩ := ih (fun d hd => hs d (by simp [hd]))
    rw [List.flatMap_cons, List.flatMap_cons]
    by_cases hc : c.toNat ≤ 0x7F
    · rw [if_neg (by omega), if_pos hc]
      have hu := hs c (by simp) hc
      refine ⟨.char c _ hu h1, ?_⟩
      show decode (c :: _) = c :: _
      rw [decode_char c _ (by rintro rfl; exact absurd hu (by decide))]
      rw [show ([].append (t.flatMap fun c => if c.toNat > 0x7F then (utf8Bytes c.toNat).flatMap (fun b => '%' :: hex2 b) else [c])) = _ from rfl] at *
      exact congrArg _ h2
    · rw [if_pos (by omega), if_neg hc]
      obtain ⟨h3, h4⟩ := hex (utf8Bytes c.toNat) _ (utf8_bytes c) h1
      exact ⟨h3, by rw [h4, h2]⟩

example : encodeUnicodeURI "/é/中".toList = "/%C3%A9/%E4%B8%AD".toList := by decide

end Verif.Props
