import Verif.Lemmas.HttpMessage
import Verif.Lemmas.ContentPackage

/-! # Reading whole responses -/

namespace Verif.Http.Msg

open Verif Verif.Spec.HttpMessage

theorem digit_tok {c : Char} (h : Py.isDigit c = true) : isTok c = true := by
  have hb : 48 ≤ c.toNat ∧ c.toNat ≤ 57 := by simpa [Py.isDigit] using h
  have : ∀ n : Fin 58, 48 ≤ n.val → isTok (Char.ofNat n.val) = true := by decide
  have h2 := this ⟨c.toNat, by omega⟩ hb.1
  rwa [show Char.ofNat c.toNat = c from Char.ofNat_toNat c] at h2

theorem hex_tok {c : Char} (h : Py.isHex c = true) : isTok c = true := by
  have hb : c.toNat < 103 := by simp [Py.isHex] at h; omega
  have : ∀ n : Fin 103, Py.isHex (Char.ofNat n.val) = true → isTok (Char.ofNat n.val) = true := by decide
  have h2 := this ⟨c.toNat, hb⟩
  rw [show Char.ofNat c.toNat = c from Char.ofNat_toNat c] at h2
  exact h2 h

theorem decimal_token {s : Str} {n : Nat} (h : Decimal s n) : Token s :=
  ⟨h.1, List.all_eq_true.mpr fun c hc => digit_tok (List.all_eq_true.mp h.2.1 c hc)⟩

theorem hex_token {s : Str} {n : Nat} (h : Hexadecimal s n) : Token s :=
  ⟨h.1, List.all_eq_true.mpr fun c hc => hex_tok (List.all_eq_true.mp h.2.1 c hc)⟩

theorem decimal_digits {s : Str} {n : Nat} (h : Decimal s n) : isDigits s = true := by
  unfold isDigits
  rw [h.2.1]
  cases s with
  | nil => exact absurd rfl h.1
  | cons => rfl

theorem decimal_no {s : Str} {n : Nat} (h : Decimal s n) {c : Char} (hc : Py.isDigit c = false) : c ∉ s := by
  intro hm
  have := List.all_eq_true.mp h.2.1 c hm
  rw [hc] at this
  cases this

theorem tok_inline {s : Str} (h : s.all isTok = true) : Inline s := by
  intro c hc
  have := tok_not_sp (List.all_eq_true.mp h c hc)
  refine ⟨this.2.2.2, ?_⟩
  rintro rfl
  exact absurd this.2.2.1 (by decide)

theorem inline_append {s t : Str} (hs : Inline s) (ht : Inline t) : Inline (s ++ t) := by
  intro c hc
  rcases List.mem_append.mp hc with hc | hc
  · exact hs c hc
  · exact ht c hc

theorem inline_cons {c : Char} {t : Str} (h1 : c ≠ '\r') (h2 : c ≠ '\n') (ht : Inline t) : Inline (c :: t) := by
  intro d hd
  cases hd with
  | head => exact ⟨h1, h2⟩
  | tail _ hd => exact ht d hd

/-- The status line is read. -/
theorem status_step {m : Str} {l : StatusLine} {major minor status : Nat} (hl : l.OK major minor status) :
    ∃ reason, Step m {} l.text { version := some ⟨major, minor⟩, status := some status, reason := reason, mode := .header } [] := by
  have hM := decimal_token hl.major
  have hm := decimal_token hl.minor
  have hs := decimal_token hl.status
  have hv : Token (l.major ++ '.' :: l.minor) := by
    refine ⟨by simp, ?_⟩
    rw [List.all_append, List.all_cons, hM.2, hm.2]
    decide
  have hh : Token ['H', 'T', 'T', 'P'] := ⟨by decide, by decide⟩
  have hsafe : Safe (' ' :: l.reason) := by
    intro c hc
    cases hc with
    | head => exact .inr (by decide)
    | tail _ hc => exact hl.safe c hc
  obtain ⟨ws, w1, w2⟩ := words_safe false _ (' ' :: l.reason) (Nat.le_refl _) hsafe
  have e : l.text = (['H', 'T', 'T', 'P'] ++ '/' :: ((l.major ++ '.' :: l.minor) ++ ' ' :: (l.status ++ ' ' :: l.reason))) ++ eol := by
    unfold StatusLine.text
    simp
  have hi : Inline (['H', 'T', 'T', 'P'] ++ '/' :: ((l.major ++ '.' :: l.minor) ++ ' ' :: (l.status ++ ' ' :: l.reason))) :=
    inline_append (tok_inline hh.2) (inline_cons (by decide) (by decide) (inline_append (tok_inline hv.2)
      (inline_cons (by decide) (by decide) (inline_append (tok_inline hs.2) (safe_inline hsafe)))))
  have hw : words false (['H', 'T', 'T', 'P'] ++ '/' :: ((l.major ++ '.' :: l.minor) ++ ' ' :: (l.status ++ ' ' :: l.reason))) =
      some (.ok (some ['H', 'T', 'T', 'P'] :: some ['/'] :: some (l.major ++ '.' :: l.minor) :: some [' '] :: some l.status :: ws)) := by
    have a1 := words_token_then (ign := false) hs (c := ' ') (by decide) w1
    have a2 := words_space_token hs a1
    have a3 := words_token_then hv (c := ' ') (by decide) a2
    have a4 := words_sep (c := '/') (by decide) (by decide) (by decide) (by decide) a3
    exact words_token_then hh (by decide) a4
  have hreq : requireHttpVersion (some ['H', 'T', 'T', 'P'] :: some ['/'] :: some (l.major ++ '.' :: l.minor) :: some [' '] ::
      some l.status :: ws) = .ok (⟨major, minor⟩, some [' '] :: some l.status :: ws) := by
    unfold requireHttpVersion
    rw [bind_run, parseSP_token hh, Except.bind, bind_run, requireToken_token hh, Except.bind]
    dsimp only
    rw [if_neg (by decide), bind_run, parseSP_other (by simp [cWord]), Except.bind, bind_run, requireSeparator_self, Except.bind,
      bind_run, parseSP_token hv, Except.bind, bind_run, requireToken_token hv, Except.bind]
    dsimp only
    rw [CP.split_append, CP.split_of_not_mem '.' _ (decimal_no hl.major (by decide)),
      CP.split_of_not_mem '.' _ (decimal_no hl.minor (by decide))]
    simp only [List.singleton_append]
    rw [decimal_digits hl.major, decimal_digits hl.minor, hl.major.2.2, hl.minor.2.2]
    rfl
  have hver : parseHttpVersion (some ['H', 'T', 'T', 'P'] :: some ['/'] :: some (l.major ++ '.' :: l.minor) :: some [' '] ::
      some l.status :: ws) = .ok (⟨major, minor⟩, some [' '] :: some l.status :: ws) := by
    unfold parseHttpVersion
    rw [hreq]
  have hint : isInteger (some l.status :: ws) = true := by
    show isDigits l.status = true
    exact decimal_digits hl.status
  have hri : requireInteger (some l.status :: ws) = .ok (status, ws) := by
    unfold requireInteger
    rw [hint]
    show Except.ok _ = _
    rw [hl.status.2.2]
    rfl
  have hrem : ∃ reason ws', (parseSP >>= fun _ => parseRemainder) ws = .ok (reason, ws') := by
    by_cases hr : l.reason = []
    · have : ws = [some [' '], none] := by
        have hx : words false [' '] = some (.ok [some [' '], none]) := by decide +kernel
        rw [hr, hx] at w1
        injection w1 with w1
        injection w1 with w1
        exact w1.symm
      rw [this]
      exact ⟨[], [], rfl⟩
    · have hn : none ∉ ws := w2 (by
        intro c hc
        rw [List.getLast?_cons] at hc
        apply hl.trimmed c
        cases hg : l.reason.getLast? with
        | none => exact absurd (List.getLast?_eq_none_iff.mp hg) hr
        | some d => rw [hg] at hc; exact hc)
      have hrun : ∀ us : Words, none ∉ us → ∃ reason ws', parseRemainder us = .ok (reason, ws') := by
        intro us hu
        unfold parseRemainder
        split
        · exact ⟨_, _, rfl⟩
        · rw [if_neg (by simpa using hu)]
          exact ⟨_, _, rfl⟩
      rw [bind_run]
      unfold parseSP
      split
      · exact hrun _ (fun hm => hn (List.mem_of_mem_tail hm))
      · exact hrun _ hn
  obtain ⟨reason, ws', hrem⟩ := hrem
  refine ⟨reason, .inl ⟨rfl, by rw [e]; exact cutLine_inline hi, ?_⟩⟩
  unfold recvLine
  dsimp only
  rw [e, dropLine]
  have hp : parsed false (['H', 'T', 'T', 'P'] ++ '/' :: ((l.major ++ '.' :: l.minor) ++ ' ' :: (l.status ++ ' ' :: l.reason))) statusParser =
      .ok (⟨major, minor⟩, status, reason) := by
    unfold parsed
    rw [hw]
    dsimp only
    have : statusParser (some ['H', 'T', 'T', 'P'] :: some ['/'] :: some (l.major ++ '.' :: l.minor) :: some [' '] ::
        some l.status :: ws) = .ok ((⟨major, minor⟩, status, reason), ws') := by
      unfold statusParser
      rw [bind_run, hver, Except.bind, bind_run, parseSP_sp, Except.bind, bind_run, get_run, Except.bind]
      dsimp only
      rw [hint, if_pos rfl, bind_run, hri, Except.bind]
      dsimp only
      rw [bind_run] at hrem ⊢
      cases hq : parseSP ws with
      | error x => rw [hq] at hrem; cases hrem
      | ok q =>
        rw [hq] at hrem
        dsimp only [Except.bind] at hrem ⊢
        rw [bind_run, hrem]
        rfl
    rw [this]
  rw [hp]

/-! ## Bodies in chunks -/

theorem hexInt_hex {s : Str} {n : Nat} (h : Hexadecimal s n) : hexInt s = .ok n := by
  obtain ⟨h1, h2, h3⟩ := h
  have hx : ∀ c ∈ s, Py.isHex c = true := List.all_eq_true.mp h2
  have hu : hexPrefix s = s := by
    unfold hexPrefix
    split
    · exact absurd (hx 'x' (List.mem_cons_of_mem _ List.mem_cons_self)) (by decide)
    · exact absurd (hx 'X' (List.mem_cons_of_mem _ List.mem_cons_self)) (by decide)
    · rfl
  unfold hexInt
  split
  · exact absurd (hx '-' List.mem_cons_self) (by decide)
  · exact absurd (hx '+' List.mem_cons_self) (by decide)
  · unfold hexNat
    rw [hu, if_pos ⟨h1, h2⟩, h3]
    rfl

theorem chunkSize_ok {s ext : Str} {n : Nat} (h : Hexadecimal s n) (he : Extension ext) : chunkSize (s ++ ext ++ eol) = .ok n := by
  have ht := hex_token h
  obtain ⟨ws, w1, _⟩ := words_safe true _ ext (Nat.le_refl _) he.1
  have hw : words true (s ++ ext) = some (.ok (some s :: ws)) := by
    refine words_token ht ?_ w1
    intro c u hc
    rcases he.2 c u hc with rfl | rfl | rfl <;> decide
  unfold chunkSize
  rw [dropLine]
  unfold parsed
  rw [hw]
  dsimp only
  unfold parseToken
  rw [isToken_token ht]
  simp only [if_true]
  exact hexInt_hex h

theorem ext_inline {s ext : Str} {n : Nat} (h : Hexadecimal s n) (he : Extension ext) : Inline (s ++ ext) :=
  inline_append (tok_inline (hex_token h).2) (safe_inline he.1)

/-- A chunk is read. -/
theorem chunk_steps {m : Str} {r : Resp} (hm : r.mode = .chunkSize) {c : Chunk} (hc : c.OK) :
    Steps m r c.text { r with length := some (c.data.length + 2), pos := c.data.length + 2 } [.data c.data] := by
  have hp : 0 < c.data.length := List.length_pos_iff.mpr hc.some
  have h1 : Step m r (c.size ++ c.ext ++ eol) { r with length := some (c.data.length + 2), pos := 0, mode := .chunkData } [] := by
    refine .inl ⟨?_, cutLine_inline (ext_inline hc.size hc.ext), ?_⟩
    · unfold needs; rw [hm]
    · unfold recvLine
      rw [hm]
      dsimp only
      rw [chunkSize_ok hc.size hc.ext]
      dsimp only
      rw [if_neg (by omega)]
  have h2 : Step m { r with length := some (c.data.length + 2), pos := 0, mode := .chunkData } (c.data ++ eol)
      { r with length := some (c.data.length + 2), pos := c.data.length + 2 } [.data c.data] := by
    refine .inr ⟨c.data.length + 2, ?_, by omega, by simp [eol], ?_⟩
    · unfold needs
      have := hc.small
      simp only
      rw [if_neg (by omega), if_pos (by omega)]
      congr 1
    · unfold recvBytes
      simp only [List.length_append, eol, List.length_cons, List.length_nil, Option.getD_some]
      have e1 : ((0 + (c.data.length + (0 + 1 + 1)) : Nat) : Int) - ((c.data.length : Int) + 2 - 2) = 2 := by omega
      rw [e1, if_pos (by omega), if_pos (by omega)]
      have e2 : (c.data ++ ['\r', '\n']).take (c.data.length + (0 + 1 + 1) - (2 : Int).toNat) = c.data := by
        rw [List.take_left']
        simp
      rw [e2]
      unfold write
      rw [if_neg hc.some, hm]
      simp
  have := Steps.step h1 (Steps.one h2)
  simpa [Chunk.text, List.append_assoc] using this

theorem chunks_steps {m : Str} : ∀ (cs : List Chunk) (r : Resp), r.mode = .chunkSize → (∀ c ∈ cs, c.OK) →
    ∃ n p, Steps m r (cs.flatMap Chunk.text) { r with length := n, pos := p } (cs.map fun c => .data c.data)
  | [], r, _, _ => ⟨r.length, r.pos, .refl r⟩
  | c :: cs, r, hm, h => by
    have h1 := chunk_steps (m := m) hm (h c List.mem_cons_self)
    obtain ⟨n, p, h2⟩ := chunks_steps (m := m) cs { r with length := some (c.data.length + 2), pos := c.data.length + 2 } hm
      (fun x hx => h x (List.mem_cons_of_mem _ hx))
    exact ⟨n, p, h1.trans h2⟩

/-- What ends a response that is not informational. -/
theorem ended_done {r : Resp} (hm : r.mode = .done) (hi : informational (r.status.getD 0) = false) (evs : List Ev) :
    ended r evs = (r, evs ++ [.finished (r.status.getD 0)]) := by
  unfold ended finish
  rw [if_pos hm, hi]
  rfl

/-- A body in chunks is read. -/
theorem body_steps {m : Str} {r : Resp} (hm : r.mode = .chunkSize) (hr : r.curr = none)
    (hi : informational (r.status.getD 0) = false) {c : Chunks} (hc : c.OK) :
    ∃ r', Steps m r c.text r' (c.chunks.map (fun c => .data c.data) ++ [.finished (r.status.getD 0)]) ∧ r'.mode = .done ∧
      r'.headers = after r.headers c.trailer ∧ r'.version = r.version ∧ r'.status = r.status := by
  obtain ⟨n, p, h1⟩ := chunks_steps (m := m) c.chunks r hm hc.chunks
  have h2 : Step m { r with length := n, pos := p } (c.zero ++ c.ext ++ eol) { r with length := some 0, pos := 0, mode := .chunkTrailer } [] := by
    refine .inl ⟨?_, cutLine_inline (ext_inline hc.zero hc.ext), ?_⟩
    · unfold needs; simp only [hm]
    · unfold recvLine
      simp only [hm]
      rw [chunkSize_ok hc.zero hc.ext]
      simp
  obtain ⟨h, cu, h3, h4⟩ := fields_steps (m := m) c.trailer { r with length := some 0, pos := 0, mode := .chunkTrailer } (.inr rfl) hc.trailer
  have hfl : (flush { r with length := some 0, pos := 0, mode := .chunkTrailer }).headers = r.headers := by
    unfold flush
    simp only [hr]
  have h5 : Step m { r with length := some 0, pos := 0, mode := .chunkTrailer, headers := h, curr := cu } eol
      { r with length := some 0, pos := 0, mode := .done, headers := after r.headers c.trailer, curr := none }
      [.finished (r.status.getD 0)] := by
    refine .inl ⟨rfl, rfl, ?_⟩
    unfold recvLine
    simp only
    rw [readHeader_end]
    simp only
    rw [flush_eq, h4, hfl, if_pos (show eol = crlfStr from rfl)]
    have := ended_done (r := { r with length := some 0, pos := 0, mode := .done, headers := after r.headers c.trailer, curr := none })
      rfl hi []
    exact congrArg Except.ok this
  have := (h1.trans (.step h2 h3)).trans (.one h5)
  have e : c.chunks.flatMap Chunk.text ++ (c.zero ++ c.ext ++ eol ++ c.trailer.flatMap Field.text) ++ eol = c.text := by
    unfold Chunks.text
    simp
  rw [e, List.nil_append, List.append_nil] at this
  exact ⟨_, this, rfl, rfl, rfl, rfl⟩

theorem strip_digits {a v b : Str} {n : Nat} (h : ∀ c ∈ a ++ b, isSpace c) (hv : Decimal v n) : strip (a ++ v ++ b) = v := by
  have hsp : ∀ c, isSpace c → isWs c = true := by
    rintro c (rfl | rfl) <;> decide
  have hdig : ∀ c, Py.isDigit c = true → isWs c = false := by
    intro c hc
    simp [Py.isDigit] at hc
    unfold isWs
    have : c ≠ ' ' := by rintro rfl; revert hc; decide
    simp [this]
    omega
  have drop : ∀ (x y : Str), (∀ c ∈ x, isWs c = true) → (∀ c u, y = c :: u → isWs c = false) → (x ++ y).dropWhile isWs = y := by
    intro x y hx hy
    induction x with
    | nil =>
      cases y with
      | nil => rfl
      | cons c u => rw [List.nil_append, List.dropWhile_cons, hy c u rfl]; rfl
    | cons c x ih =>
      rw [List.cons_append, List.dropWhile_cons, hx c List.mem_cons_self]
      exact ih fun d hd => hx d (List.mem_cons_of_mem _ hd)
  have hva : ∀ c ∈ v, isWs c = false := fun c hc => hdig c (List.all_eq_true.mp hv.2.1 c hc)
  unfold strip
  rw [List.append_assoc, drop a (v ++ b) (fun c hc => hsp c (h c (List.mem_append_left _ hc)))]
  · rw [List.reverse_append, drop b.reverse v.reverse]
    · rw [List.reverse_reverse]
    · intro c hc
      exact hsp c (h c (List.mem_append_right _ (List.mem_reverse.mp hc)))
    · intro c u hc
      refine hva c (List.mem_reverse.mp ?_)
      rw [hc]
      exact List.mem_cons_self
  · intro c u hc
    cases v with
    | nil => exact absurd rfl hv.1
    | cons d v =>
      injection hc with h1 _
      rw [← h1]
      exact hva d List.mem_cons_self

theorem pyInt_decimal {v : Str} {n : Nat} (hv : Decimal v n) : Xsd.pyInt v = .ok n := by
  obtain ⟨h1, h2, h3⟩ := hv
  have hx : ∀ c ∈ v, Py.isDigit c = true := List.all_eq_true.mp h2
  unfold Xsd.pyInt
  split
  · exact absurd (hx '-' List.mem_cons_self) (by decide)
  · exact absurd (hx '+' List.mem_cons_self) (by decide)
  · rw [if_pos ⟨h1, h2⟩, h3]

/-- The first digit of an informational status. -/
theorem bodyless_iff (m : Str) (status : Nat) : bodyless m status ↔ (status / 100 = 1 ∨ status = 204 ∨ status = 304 ∨ m = "HEAD".toList) := by
  unfold bodyless
  have : (100 ≤ status ∧ status ≤ 199) ↔ status / 100 = 1 := by omega
  rw [this]

/-- What is done of a response with some data in pieces. -/
def evsOf (ds : List Str) (status : Nat) : List Ev := .header :: ds.map .data ++ [.finished status]

/-- The head of a response is read. -/
theorem head_steps {m : Str} {l : StatusLine} {major minor status : Nat} (hl : l.OK major minor status) {head : List Field}
    (hf : ∀ f ∈ head, f.OK) (hlen : ∀ reason, ∃ ch ln, responseLength m
      { version := some ⟨major, minor⟩, status := some status, reason := reason, mode := .header, headers := after [] head } =
      .ok { version := some ⟨major, minor⟩, status := some status, reason := reason, mode := .header, headers := after [] head,
            chunked := ch, length := ln }) :
    ∃ reason ch ln, responseLength m
      { version := some ⟨major, minor⟩, status := some status, reason := reason, mode := .header, headers := after [] head } =
      .ok { version := some ⟨major, minor⟩, status := some status, reason := reason, mode := .header, headers := after [] head,
            chunked := ch, length := ln } ∧
      Steps m {} (l.text ++ head.flatMap Field.text ++ eol)
        (ended (startBody { version := some ⟨major, minor⟩, status := some status, reason := reason, mode := .header, headers := after [] head, chunked := ch, length := ln }) [.header]).1
        (ended (startBody { version := some ⟨major, minor⟩, status := some status, reason := reason, mode := .header, headers := after [] head, chunked := ch, length := ln }) [.header]).2 := by
  obtain ⟨reason, h1⟩ := status_step (m := m) hl
  obtain ⟨h, cu, h2, h3⟩ := fields_steps (m := m) head
    { version := some ⟨major, minor⟩, status := some status, reason := reason, mode := .header } (.inl rfl) hf
  obtain ⟨ch, ln, h4⟩ := hlen reason
  refine ⟨reason, ch, ln, h4, ?_⟩
  have h5 : Step m { version := some ⟨major, minor⟩, status := some status, reason := reason, mode := .header, headers := h, curr := cu } eol
        (ended (startBody { version := some ⟨major, minor⟩, status := some status, reason := reason, mode := .header, headers := after [] head, chunked := ch, length := ln }) [.header]).1
        (ended (startBody { version := some ⟨major, minor⟩, status := some status, reason := reason, mode := .header, headers := after [] head, chunked := ch, length := ln }) [.header]).2 := by
    refine .inl ⟨rfl, rfl, ?_⟩
    unfold recvLine
    simp only
    rw [readHeader_end]
    simp only
    rw [flush_eq, h3, if_pos (show eol = crlfStr from rfl)]
    have : (flush { version := some ⟨major, minor⟩, status := some status, reason := reason, mode := .header }).headers = [] := rfl
    rw [this]
    simp only at h4 ⊢
    rw [h4]
  have := (Steps.step h1 h2).trans (.one h5)
  simpa [List.append_assoc] using this

theorem getHeader_fields (fs : List Field) (name : Str) : getHeader (after [] fs) name = valueOf fs name :=
  getHeader_after fs [] name

/-- An informational response is read and forgotten. -/
theorem informational_steps {m : Str} {major minor status : Nat} {fields : List Field} {data text : Str}
    (h : Response m major minor status fields data text) (hi : informational status = true) :
    Steps m {} text {} [.header, .finished status] := by
  obtain ⟨l, head, body, trailer, hl, hf, hfr, _, rfl⟩ := h.written
  have hb : bodyless m status := by
    left
    simpa [informational] using hi
  cases hfr with
  | none _ =>
    have hlen : ∀ reason, responseLength m
        { version := some ⟨major, minor⟩, status := some status, reason := reason, mode := .header, headers := after [] head } =
        .ok { version := some ⟨major, minor⟩, status := some status, reason := reason, mode := .header, headers := after [] head, chunked := false, length := some 0 } := by
      intro reason
      unfold responseLength
      simp only [Option.getD_some]
      rw [if_pos ((bodyless_iff m status).mp hb)]
    obtain ⟨reason, ch, ln, h1, h2⟩ := head_steps hl hf (fun reason => ⟨_, _, hlen reason⟩)
    rw [hlen reason] at h1
    cases h1
    rw [List.append_nil]
    have e : ended (startBody { version := some ⟨major, minor⟩, status := some status, reason := reason, mode := .header, headers := after [] head, chunked := false, length := some 0 }) [.header] = ({}, [.header, .finished status]) := by
      unfold startBody ended finish
      simp [hi]
    rw [e] at h2
    exact h2
  | sized _ _ _ _ hn => exact absurd hb hn
  | chunked _ _ hn => exact absurd hb hn

/-- A response is read. -/
theorem response_steps {m : Str} {major minor status : Nat} {fields : List Field} {data text : Str}
    (h : Response m major minor status fields data text) (hi : informational status = false) :
    ∃ r ds, Steps m {} text r (evsOf ds status) ∧ r.mode = .done ∧ ds.flatten = data ∧ r.version = some ⟨major, minor⟩ ∧
      r.status = some status ∧ ∀ name, getHeader r.headers name = valueOf fields name := by
  obtain ⟨l, head, body, trailer, hl, hf, hfr, rfl, rfl⟩ := h.written
  cases hfr with
  | none hb =>
    have hlen : ∀ reason, responseLength m
        { version := some ⟨major, minor⟩, status := some status, reason := reason, mode := .header, headers := after [] head } =
        .ok { version := some ⟨major, minor⟩, status := some status, reason := reason, mode := .header, headers := after [] head, chunked := false, length := some 0 } := by
      intro reason
      unfold responseLength
      simp only [Option.getD_some]
      rw [if_pos ((bodyless_iff m status).mp hb)]
    obtain ⟨reason, ch, ln, h1, h2⟩ := head_steps hl hf (fun reason => ⟨_, _, hlen reason⟩)
    rw [hlen reason] at h1
    cases h1
    rw [List.append_nil, List.append_nil]
    have e : ended (startBody { version := some ⟨major, minor⟩, status := some status, reason := reason, mode := .header, headers := after [] head, chunked := false, length := some 0 }) [.header] =
        ({ version := some ⟨major, minor⟩, status := some status, reason := reason, mode := .done, headers := after [] head, chunked := false, length := some 0 }, [.header, .finished status]) := by
      unfold startBody ended finish
      simp [hi]
    rw [e] at h2
    exact ⟨_, [], h2, rfl, rfl, rfl, rfl, getHeader_fields head⟩
  | sized a v b _ hb hte hcl hsp hv hsm =>
    have hlen : ∀ reason, responseLength m
        { version := some ⟨major, minor⟩, status := some status, reason := reason, mode := .header, headers := after [] head } =
        .ok { version := some ⟨major, minor⟩, status := some status, reason := reason, mode := .header, headers := after [] head, chunked := false, length := some data.length } := by
      intro reason
      unfold responseLength transferEncoding contentLength
      simp only [Option.getD_some]
      rw [if_neg (fun h => hb ((bodyless_iff m status).mpr h)), getHeader_fields, hte]
      simp only [if_true]
      rw [getHeader_fields, hcl]
      simp only
      rw [strip_digits hsp hv, pyInt_decimal hv]
    obtain ⟨reason, ch, ln, h1, h2⟩ := head_steps hl hf (fun reason => ⟨_, _, hlen reason⟩)
    rw [hlen reason] at h1
    cases h1
    by_cases hd : data = []
    · subst hd
      rw [List.append_nil, List.append_nil]
      have e : ended (startBody { version := some ⟨major, minor⟩, status := some status, reason := reason, mode := .header, headers := after [] head, chunked := false, length := some (([] : Str).length : Int) }) [.header] =
          ({ version := some ⟨major, minor⟩, status := some status, reason := reason, mode := .done, headers := after [] head, chunked := false, length := some 0 }, [.header, .finished status]) := by
        unfold startBody ended finish
        simp [hi]
      rw [e] at h2
      exact ⟨_, [], h2, rfl, rfl, rfl, rfl, getHeader_fields head⟩
    · have hp : 0 < data.length := List.length_pos_iff.mpr hd
      have e : ended (startBody { version := some ⟨major, minor⟩, status := some status, reason := reason, mode := .header, headers := after [] head, chunked := false, length := some (data.length : Int) }) [.header] =
          ({ version := some ⟨major, minor⟩, status := some status, reason := reason, mode := .data, headers := after [] head, chunked := false, length := some data.length }, [.header]) := by
        unfold startBody ended
        simp [hd]
      rw [e] at h2
      have h3 : Step m { version := some ⟨major, minor⟩, status := some status, reason := reason, mode := .data, headers := after [] head, chunked := false, length := some (data.length : Int) } data
             { version := some ⟨major, minor⟩, status := some status, reason := reason, mode := .done, headers := after [] head, chunked := false, length := some (data.length : Int), pos := data.length }
             [.data data, .finished status] := by
        refine .inr ⟨data.length, ?_, hp, rfl, ?_⟩
        · unfold needs
          simp only
          rw [if_neg (by omega), if_pos (by omega)]
          simp
        · unfold recvBytes
          simp only [Option.getD_some, Nat.zero_add]
          rw [if_pos (show (data.length : Int) ≠ 0 from by omega), if_neg (show ¬ (data.length : Int) > data.length from by omega),
            if_pos (show (data.length : Int) ≥ data.length from by omega)]
          refine (ended_done (by rfl) (by exact hi) _).trans ?_
          unfold write
          rw [if_neg hd]
          rfl
      rw [List.append_nil]
      exact ⟨_, [data], h2.trans (.one h3), rfl, by simp, rfl, rfl, getHeader_fields head⟩
  | chunked e c hb hte he hc =>
    have hlen : ∀ reason, responseLength m
        { version := some ⟨major, minor⟩, status := some status, reason := reason, mode := .header, headers := after [] head } =
        .ok { version := some ⟨major, minor⟩, status := some status, reason := reason, mode := .header, headers := after [] head, chunked := true, length := none } := by
      intro reason
      unfold responseLength transferEncoding
      simp only [Option.getD_some]
      rw [if_neg (fun h => hb ((bodyless_iff m status).mpr h)), getHeader_fields, hte]
      simp only
      rw [if_neg (fun h => he (of_decide_eq_true h))]
    obtain ⟨reason, ch, ln, h1, h2⟩ := head_steps hl hf (fun reason => ⟨_, _, hlen reason⟩)
    rw [hlen reason] at h1
    cases h1
    have e : ended (startBody { version := some ⟨major, minor⟩, status := some status, reason := reason, mode := .header, headers := after [] head, chunked := true, length := none }) [.header] =
        ({ version := some ⟨major, minor⟩, status := some status, reason := reason, mode := .chunkSize, headers := after [] head, chunked := true, length := none }, [.header]) := by
      unfold startBody ended
      simp
    rw [e] at h2
    obtain ⟨r', h3, h4, h5, h6, h7⟩ := body_steps (m := m) (r := { version := some ⟨major, minor⟩, status := some status, reason := reason, mode := .chunkSize, headers := after [] head, chunked := true, length := none }) rfl rfl hi hc
    refine ⟨r', c.chunks.map Chunk.data, ?_, h4, ?_, h6, h7, ?_⟩
    · have := h2.trans h3
      unfold evsOf
      rw [List.map_map]
      exact this
    · rw [Chunks.data, List.flatMap_def]
    · intro name
      rw [h5, ← getHeader_fields]
      unfold after
      rw [List.foldl_append]

end Verif.Http.Msg
