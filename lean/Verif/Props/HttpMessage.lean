import Verif.Lemmas.HttpResponse

/-!
# HTTP messages

C232: responses are read however they arrive.  C233: bodies that end with the connection.  C234: reading comes to an end.
C235: the way a response is cut in pieces.  C236: errors in responses.  C237: responses that are misread.
-/

namespace Verif.Props

open Verif Verif.Http Verif.Http.Msg Verif.Spec.HttpMessage

/-- What a response is seen to do: the header is complete, data, and the end. -/
def seen (ds : List Str) (status : Nat) : List Ev := .header :: ds.map .data ++ [.finished status]

/-- What an answer is seen to do: informational responses end without data. -/
def answered (infos : List Nat) (ds : List Str) (status : Nat) : List Ev :=
  infos.flatMap (fun s => [.header, .finished s]) ++ seen ds status

theorem not_informational {s : Nat} (h : ¬ (100 ≤ s ∧ s ≤ 199)) : informational s = false := by
  unfold informational
  simp only [Bool.and_eq_false_iff, decide_eq_false_iff_not]
  omega

theorem answer_steps {m : Str} {major minor status : Nat} {fields : List Field} {data text : Str} {infos : List Nat}
    (h : Answer m major minor status fields data infos text) :
    ∃ r ds, Steps m {} text r (answered infos ds status) ∧ r.mode = .done ∧ ds.flatten = data ∧ r.version = some ⟨major, minor⟩ ∧
      r.status = some status ∧ ∀ name, getHeader r.headers name = valueOf fields name := by
  induction h with
  | final h hn => exact response_steps h (not_informational hn)
  | before h hs _ ih =>
    obtain ⟨r, ds, h1, h2⟩ := ih
    exact ⟨r, ds, (informational_steps h (by simpa [informational] using hs)).trans h1, h2⟩

theorem answer_ne {m : Str} {major minor status : Nat} {fields : List Field} {data text : Str} {infos : List Nat}
    (h : Answer m major minor status fields data infos text) : text ≠ [] := by
  cases h with
  | final h =>
    obtain ⟨l, head, body, trailer, _, _, _, _, rfl⟩ := h.written
    simp [StatusLine.text]
  | before h =>
    obtain ⟨l, head, body, trailer, _, _, _, _, rfl⟩ := h.written
    simp [StatusLine.text]

/-- **C232.**  A response, with any informational ones before it, is read completely however it arrives in pieces and whatever
follows it: the version, the status, every header, the data and the end are those of the response, and what follows is left. -/
theorem http_response_read {m : Str} {major minor status : Nat} {fields : List Field} {data text : Str} {infos : List Nat}
    (h : Answer m major minor status fields data infos text) (pieces : List Str) (rest : Str) (hp : pieces.flatten = text ++ rest) :
    ∃ x left ds, receiveAll m {} {} pieces = .ok (x, left) ∧ x.complete = true ∧ x.r.version = some ⟨major, minor⟩ ∧
      x.r.status = some status ∧ (∀ name, getHeader x.r.headers name = valueOf fields name) ∧
      x.evs = answered infos ds status ∧ ds.flatten = data ∧ x.b.pieces.flatten ++ left.flatten = rest := by
  obtain ⟨r, ds, h1, h2, h3, h4, h5, h6⟩ := answer_steps h
  obtain ⟨x, left, e1, e2, e3, e4, _, e6⟩ := receiveAll_steps (m := m) (r' := r) (by unfold needs; rw [h2]) pieces {} {} text text rest _
    h1 rfl rfl (answer_ne h) (by rw [show (Buf.pieces {}).flatten = [] from rfl, List.nil_append, hp])
  exact ⟨x, left, ds, e1, e2, by rw [e3]; exact h4, by rw [e3]; exact h5, by rw [e3]; exact h6, e4, h3, e6⟩

/-- As long as something is missing, more is asked for. -/
theorem receiveAll_wait {m : Str} {r' : Resp} :
    ∀ (ds : List Str) (r : Resp) (b : Buf) (c q : Str) (evs : List Ev), Steps m r c r' evs → b.OK →
      c = b.pieces.flatten ++ ds.flatten ++ q → q ≠ [] →
      ∃ x e2, receiveAll m r b ds = .ok (x, []) ∧ x.complete = false ∧ evs = x.evs ++ e2
  | [], r, b, c, q, evs, _, _, _, _ => ⟨⟨r, b, [], false⟩, evs, rfl, rfl, rfl⟩
  | d :: ds, r, b, c, q, evs, h, hb, hc, hq => by
    have hb' : Buf.OK ⟨b.pieces ++ [d], b.size + d.length⟩ := by
      unfold Buf.OK at hb ⊢
      simp only [List.flatten_append, List.flatten_cons, List.flatten_nil, List.append_nil, List.length_append]
      omega
    have hf : (Buf.pieces ⟨b.pieces ++ [d], b.size + d.length⟩).flatten = b.pieces.flatten ++ d := by simp
    unfold receiveAll receive
    obtain ⟨r1, b', e1, e2, c', d1, d2, d3, d4, d5⟩ := loop_partial h (b := ⟨b.pieces ++ [d], b.size + d.length⟩)
      (p := b.pieces.flatten ++ d) (q := ds.flatten ++ q) none
      (2 * (Buf.pieces ⟨b.pieces ++ [d], b.size + d.length⟩).flatten.length + 3) hb' hf (by rw [hc]; simp) (by simp [hq])
      (by rw [hf]; omega)
    obtain ⟨x, e3, f1, f2, f3⟩ := receiveAll_wait ds r1 b' c' q e2 d5 d2 (by rw [d3, List.append_assoc]) hq
    dsimp only
    rw [d1]
    dsimp only
    rw [if_neg (by simp), f1]
    exact ⟨{ x with evs := e1 ++ x.evs }, e3, rfl, f2, by rw [d4, f3, List.append_assoc]⟩

/-- **C232.**  A response that has not arrived completely is not reported as complete and is no error, and what was passed on
of it is the beginning of what it will be in the end. -/
theorem http_response_waits {m : Str} {major minor status : Nat} {fields : List Field} {data text : Str} {infos : List Nat}
    (h : Answer m major minor status fields data infos text) (pieces : List Str) (missing : Str) (hm : missing ≠ [])
    (hp : text = pieces.flatten ++ missing) :
    ∃ x ds later, receiveAll m {} {} pieces = .ok (x, []) ∧ x.complete = false ∧ ds.flatten = data ∧
      answered infos ds status = x.evs ++ later := by
  obtain ⟨r, ds, h1, _, h3, _⟩ := answer_steps h
  obtain ⟨x, e2, f1, f2, f3⟩ := receiveAll_wait pieces {} {} text missing _ h1 rfl
    (by rw [show (Buf.pieces {}).flatten = [] from rfl, List.nil_append, hp]) hm
  exact ⟨x, ds, e2, f1, f2, h3, f3⟩

/-- A line of an example. -/
def exField (n v : String) : Field := ⟨n.toList, v.toList, []⟩

/-- A status line of an example. -/
def exStatus (s r : String) : StatusLine := ⟨['1'], ['1'], s.toList, r.toList⟩

theorem exField_ok (n v : String) (h : (n.toList.all fun c => c ≠ '\r' ∧ c ≠ '\n' ∧ c ≠ ':') = true)
    (hs : (n.toList.head?.all fun c => c ≠ ' ' ∧ c ≠ '\t') = true) (hv : (v.toList.all fun c => c ≠ '\r' ∧ c ≠ '\n') = true) :
    (exField n v).OK where
  name := fun c hc => by have := List.all_eq_true.mp h c hc; simp at this; exact ⟨this.1, this.2.1⟩
  colon := fun hc => by have := List.all_eq_true.mp h ':' hc; simp at this
  start := fun c t e => by
    have e' : n.toList = c :: t := e
    rw [e'] at hs
    simpa using hs
  value := fun c hc => by have := List.all_eq_true.mp hv c hc; simpa using this
  more := fun l hl => by cases hl

theorem exOne : Decimal ['1'] 1 := ⟨List.cons_ne_nil _ _, by decide, by decide⟩

theorem exStatus_ok (s r : String) (n : Nat) (h : s.toList ≠ [] ∧ s.toList.all Py.isDigit = true ∧ Py.digitsVal 10 s.toList = n)
    (hr : (r.toList.all fun c => c = '\t' ∨ (32 ≤ c.toNat ∧ c.toNat ≠ 127 ∧ c ≠ '(' ∧ c ≠ '"')) = true)
    (ht : (r.toList.getLast?.all fun c => c ≠ ' ' ∧ c ≠ '\t') = true) : (exStatus s r).OK 1 1 n where
  major := exOne
  minor := exOne
  status := h
  safe := fun c hc => by have := List.all_eq_true.mp hr c hc; simpa using this
  trimmed := fun c hc hsp => by
    have hc' : r.toList.getLast? = some c := hc
    rw [hc'] at ht
    simp at ht
    rcases hsp with rfl | rfl
    · exact ht.1 rfl
    · exact ht.2 rfl

/-- The chunks of an example. -/
def exChunks : Chunks := ⟨[⟨"00b".toList, " ;x=y".toList, "hello world".toList⟩, ⟨"1".toList, [], "!".toList⟩], "0".toList, [],
  [exField "X-Sum" " 7"]⟩

theorem exChunks_ok : exChunks.OK where
  chunks := by
    intro x hx
    rcases List.mem_cons.mp hx with rfl | hx
    · refine ⟨by unfold Hexadecimal; decide +kernel, by decide +kernel, by decide +kernel, ?_, ?_⟩
      · intro c hc
        have : ∀ c ∈ " ;x=y".toList, c = '\t' ∨ (32 ≤ c.toNat ∧ c.toNat ≠ 127 ∧ c ≠ '(' ∧ c ≠ '"') := by decide +kernel
        exact this c hc
      · intro c t e
        have h0 : (" ;x=y".toList).head? = some c := (congrArg List.head? e).trans rfl
        have h1 : (" ;x=y".toList).head? = some ' ' := by decide +kernel
        rw [h1] at h0
        injection h0 with h0
        exact .inr (.inl h0.symm)
    · rcases List.mem_cons.mp hx with rfl | hx
      · exact ⟨by unfold Hexadecimal; decide +kernel, by decide +kernel, by decide +kernel,
          (fun c hc => nomatch hc), (fun c t e => nomatch e)⟩
      · cases hx
  zero := by unfold Hexadecimal; decide +kernel
  ext := ⟨(fun c hc => nomatch hc), (fun c t e => nomatch e)⟩
  trailer := by
    intro f hf
    rcases List.mem_cons.mp hf with rfl | hf
    · exact exField_ok _ _ (by decide +kernel) (by decide +kernel) (by decide +kernel)
    · cases hf

/-- The hypotheses of `http_response_read` are met: an informational response and one in two chunks with a field after them. -/
theorem http_response_example : Answer "GET".toList 1 1 200 [exField "Transfer-Encoding" " chunked", exField "X-Sum" " 7"]
    "hello world!".toList [100]
    ("HTTP/1.1 100 Continue\r\n\r\n".toList ++
      "HTTP/1.1 200 OK\r\nTransfer-Encoding: chunked\r\n\r\n00b ;x=y\r\nhello world\r\n1\r\n!\r\n0\r\nX-Sum: 7\r\n\r\n".toList) := by
  refine .before (a := 1) (b := 1) (fs := []) (d := []) ⟨exStatus "100" "Continue", [], [], [], ?_, ?_, .none (.inl (by decide)), rfl, ?_⟩
    (by decide) (.final ⟨exStatus "200" "OK", [exField "Transfer-Encoding" " chunked"], exChunks.text, exChunks.trailer, ?_, ?_, ?_, rfl, ?_⟩
      (by decide))
  · exact exStatus_ok _ _ _ (by decide +kernel) (by decide +kernel) (by decide +kernel)
  · intro f hf; cases hf
  · decide +kernel
  · exact exStatus_ok _ _ _ (by decide +kernel) (by decide +kernel) (by decide +kernel)
  · intro f hf
    rcases List.mem_cons.mp hf with rfl | hf
    · exact exField_ok _ _ (by decide +kernel) (by decide +kernel) (by decide +kernel)
    · cases hf
  · have hd : "hello world!".toList = exChunks.data := by decide +kernel
    rw [hd]
    refine .chunked " chunked".toList exChunks ?_ (by decide +kernel) (by decide +kernel) exChunks_ok
    unfold bodyless
    decide +kernel
  · decide +kernel

/-! ## Bodies that end with the connection -/

/-- The state in which everything is passed on. -/
def Streaming (r : Resp) : Prop := r.mode = .data ∧ r.length = some 0

theorem streaming_needs {r : Resp} (h : Streaming r) : needs r = .bytes 0 := by
  unfold needs
  rw [h.1, h.2]
  rfl

theorem streaming_bytes {r : Resp} (h : Streaming r) (d : Str) : recvBytes r d = ({ r with pos := r.pos + d.length }, write d) := by
  unfold recvBytes
  rw [h.1, h.2]
  rfl

theorem loop_stream {m : Str} {r r' : Resp} {s : Str} {evs : List Ev} (h : Steps m r s r' evs) (hs : Streaming r') :
    ∀ {b : Buf} {rest : Str} (last : Option Str) (fuel : Nat), b.OK → b.pieces.flatten = s ++ rest → s.length + 1 < fuel →
      ∃ p b', loop m fuel r b last = .ok ⟨{ r' with pos := p }, b', evs ++ write rest, false⟩ ∧ b'.OK ∧ b'.pieces.flatten = [] := by
  induction h with
  | refl r =>
    intro b rest last fuel hb hd hf
    obtain ⟨k, rfl⟩ : ∃ k, fuel = k + 2 := ⟨fuel - 2, by omega⟩
    rw [List.nil_append] at hd
    have hsz : b.size = rest.length := by unfold Buf.OK at hb; rw [hb, hd]
    by_cases hr : rest = []
    · refine ⟨r.pos, b, ?_, hb, by rw [hd, hr]⟩
      unfold loop round
      rw [streaming_needs hs]
      dsimp only
      rw [if_pos rfl, if_neg (by rw [hsz, hr]; simp)]
      rw [hr]
      rfl
    · refine ⟨r.pos + rest.length, ⟨[], 0⟩, ?_, rfl, rfl⟩
      have : 0 < rest.length := List.length_pos_iff.mpr hr
      unfold loop round
      rw [streaming_needs hs]
      dsimp only
      rw [if_pos rfl, if_pos (by omega), hd, streaming_bytes hs]
      dsimp only
      unfold loop round
      have hs' : Streaming { r with pos := r.pos + rest.length } := hs
      rw [streaming_needs hs']
      dsimp only
      rw [if_pos rfl, if_neg (by decide)]
      simp [Except.map]
  | step h1 h2 ih =>
    rename_i r r1 r2 u s e1 e2
    intro b rest last fuel hb hd hf
    cases fuel with
    | zero => omega
    | succ fuel =>
      rw [List.append_assoc] at hd
      obtain ⟨b1, last1, a1, a2, a3⟩ := round_step h1 hb hd last
      have hp : 0 < u.length := List.length_pos_iff.mpr h1.pos
      rw [List.length_append] at hf
      obtain ⟨p, b', c1, c2, c3⟩ := ih hs (b := b1) (rest := rest) last1 fuel a2 a3 (by omega)
      refine ⟨p, b', ?_, c2, c3⟩
      unfold loop
      rw [a1]
      dsimp only
      rw [c1]
      simp [Except.map]

/-- The data that are passed on. -/
def passed (evs : List Ev) : Str := evs.flatMap fun e => match e with
  | .data d => d
  | _ => []

theorem passed_append (a b : List Ev) : passed (a ++ b) = passed a ++ passed b := by
  unfold passed
  rw [List.flatMap_append]

theorem passed_write (d : Str) : passed (write d) = d := by
  unfold write
  split
  · next h => rw [h]; rfl
  · simp [passed]

theorem write_data (d : Str) : ∀ e ∈ write d, ∃ x, e = .data x := by
  intro e he
  unfold write at he
  split at he
  · cases he
  · simp at he; exact ⟨d, he⟩

theorem steps_nil {m : Str} {r r' : Resp} {c : Str} {evs : List Ev} (h : Steps m r c r' evs) (hc : c = []) : r' = r ∧ evs = [] := by
  cases h with
  | refl => exact ⟨rfl, rfl⟩
  | step h1 _ => exact absurd (List.append_eq_nil_iff.mp hc).1 h1.pos

theorem receiveAll_stream {m : Str} {r' : Resp} (hs : Streaming r') :
    ∀ (ds : List Str) (r : Resp) (b : Buf) (c rest : Str) (evs : List Ev), Steps m r c r' evs → b.OK →
      b.pieces.flatten ++ ds.flatten = c ++ rest → (c = [] ∧ b.pieces.flatten = [] ∨ ∃ q, q ≠ [] ∧ c = b.pieces.flatten ++ q) →
      ∃ x p out, receiveAll m r b ds = .ok (x, []) ∧ x.complete = false ∧ x.r = { r' with pos := p } ∧ x.evs = evs ++ out ∧
        (∀ e ∈ out, ∃ d, e = .data d) ∧ passed out = rest ∧ x.b.pieces.flatten = []
  | [], r, b, c, rest, evs, h, hb, hd, hq => by
    rcases hq with ⟨hc, hbe⟩ | ⟨q, hq, hc⟩
    · subst hc
      rw [hbe] at hd
      obtain ⟨rfl, rfl⟩ := steps_nil h rfl
      exact ⟨⟨r', b, [], false⟩, r'.pos, [], rfl, rfl, rfl, rfl, by simp, by simpa [passed] using hd, hbe⟩
    · rw [hc, List.flatten_nil, List.append_nil, List.append_assoc] at hd
      have := congrArg List.length hd
      simp only [List.length_append] at this
      have : 0 < q.length := List.length_pos_iff.mpr hq
      omega
  | d :: ds, r, b, c, rest, evs, h, hb, hd, hq => by
    have hb' : Buf.OK ⟨b.pieces ++ [d], b.size + d.length⟩ := by
      unfold Buf.OK at hb ⊢
      simp only [List.flatten_append, List.flatten_cons, List.flatten_nil, List.append_nil, List.length_append]
      omega
    have hf : (Buf.pieces ⟨b.pieces ++ [d], b.size + d.length⟩).flatten = b.pieces.flatten ++ d := by simp
    rw [List.flatten_cons, ← List.append_assoc] at hd
    have full : ∀ a : Str, b.pieces.flatten ++ d = c ++ a → rest = a ++ ds.flatten →
        ∃ x p out, receiveAll m r b (d :: ds) = .ok (x, []) ∧ x.complete = false ∧ x.r = { r' with pos := p } ∧ x.evs = evs ++ out ∧
          (∀ e ∈ out, ∃ d, e = .data d) ∧ passed out = rest ∧ x.b.pieces.flatten = [] := by
      intro a ha1 ha2
      obtain ⟨p, b', c1, c2, c3⟩ := loop_stream h hs (b := ⟨b.pieces ++ [d], b.size + d.length⟩) (rest := a) none
        (2 * (Buf.pieces ⟨b.pieces ++ [d], b.size + d.length⟩).flatten.length + 3) hb' (by rw [hf, ha1])
        (by rw [hf, ha1, List.length_append]; omega)
      have hs' : Streaming { r' with pos := p } := hs
      obtain ⟨x, p2, out, f1, f2, f3, f4, f5, f6, f7⟩ := receiveAll_stream (m := m) hs' ds { r' with pos := p } b' [] ds.flatten [] (.refl _) c2
        (by rw [c3]) (.inl ⟨rfl, c3⟩)
      refine ⟨{ x with evs := evs ++ write a ++ x.evs }, p2, write a ++ out, ?_, f2, f3, ?_, ?_, ?_, f7⟩
      · unfold receiveAll receive
        dsimp only
        rw [c1]
        dsimp only
        rw [if_neg (by simp), f1]
        rfl
      · show evs ++ write a ++ x.evs = _
        rw [f4, List.nil_append, List.append_assoc]
      · intro e he
        rcases List.mem_append.mp he with he | he
        · exact write_data a e he
        · exact f5 e he
      · rw [passed_append, passed_write, f6, ha2]
    rcases List.append_eq_append_iff.mp hd with ⟨a, ha1, ha2⟩ | ⟨a, ha1, ha2⟩
    · by_cases ha : a = []
      · subst ha
        exact full [] (by rw [List.append_nil] at ha1 ⊢; exact ha1.symm) (by rw [List.nil_append] at ha2 ⊢; exact ha2.symm)
      · obtain ⟨r1, b', e1, e2, c', d1, d2, d3, d4, d5⟩ := loop_partial h (b := ⟨b.pieces ++ [d], b.size + d.length⟩)
          (p := b.pieces.flatten ++ d) (q := a) none
          (2 * (Buf.pieces ⟨b.pieces ++ [d], b.size + d.length⟩).flatten.length + 3) hb' hf ha1 ha (by rw [hf]; omega)
        obtain ⟨x, p, out, f1, f2, f3, f4, f5, f6, f7⟩ := receiveAll_stream hs ds r1 b' c' rest e2 d5 d2
          (by rw [d3, List.append_assoc, ha2]) (.inr ⟨a, ha, d3⟩)
        refine ⟨{ x with evs := e1 ++ x.evs }, p, out, ?_, f2, f3, ?_, f5, f6, f7⟩
        · unfold receiveAll receive
          dsimp only
          rw [d1]
          dsimp only
          rw [if_neg (by simp), f1]
          rfl
        · show e1 ++ x.evs = _
          rw [f4, d4, List.append_assoc]
    · exact full a ha1 ha2

/-- The head of such a response is read. -/
theorem open_steps {m : Str} {major minor status : Nat} {head : List Field} {text : Str} (h : OpenHead m major minor status head text) :
    ∃ r, Steps m {} text r [.header] ∧ Streaming r ∧ r.version = some ⟨major, minor⟩ ∧ r.status = some status ∧
      ∀ name, getHeader r.headers name = valueOf head name := by
  obtain ⟨l, hl, hf, hb, hte, hcl, rfl⟩ := h
  have hlen : ∀ reason, responseLength m
      { version := some ⟨major, minor⟩, status := some status, reason := reason, mode := .header, headers := after [] head } =
      .ok { version := some ⟨major, minor⟩, status := some status, reason := reason, mode := .header, headers := after [] head,
            chunked := false, length := none } := by
    intro reason
    unfold responseLength transferEncoding contentLength
    simp only [Option.getD_some]
    rw [if_neg (fun h => hb ((bodyless_iff m status).mpr h)), getHeader_fields, hte]
    simp only [if_true]
    rw [getHeader_fields, hcl]
  obtain ⟨reason, ch, ln, h1, h2⟩ := head_steps hl hf (fun reason => ⟨_, _, hlen reason⟩)
  rw [hlen reason] at h1
  cases h1
  exact ⟨_, h2, ⟨rfl, rfl⟩, rfl, rfl, getHeader_fields head⟩

/-- **C233.**  The body of a response that does not announce an end is passed on byte for byte as it arrives, however it arrives:
nothing is kept back, lost or repeated, and the response is not complete before the connection ends. -/
theorem http_open_body {m : Str} {major minor status : Nat} {head : List Field} {text : Str} (h : OpenHead m major minor status head text)
    (pieces : List Str) (body : Str) (hp : pieces.flatten = text ++ body) :
    ∃ x out, receiveAll m {} {} pieces = .ok (x, []) ∧ x.complete = false ∧ x.r.status = some status ∧
      (∀ name, getHeader x.r.headers name = valueOf head name) ∧ x.evs = .header :: out ∧ (∀ e ∈ out, ∃ d, e = .data d) ∧
      passed out = body ∧ x.b.pieces.flatten = [] := by
  obtain ⟨r, h1, h2, h3, h4, h5⟩ := open_steps h
  have hne : text ≠ [] := by
    obtain ⟨l, _, _, _, _, _, rfl⟩ := h
    simp [StatusLine.text]
  obtain ⟨x, p, out, f1, f2, f3, f4, f5, f6, f7⟩ := receiveAll_stream h2 pieces {} {} text body _ h1 rfl
    (by rw [show (Buf.pieces {}).flatten = [] from rfl, List.nil_append, hp]) (.inr ⟨text, hne, rfl⟩)
  exact ⟨x, out, f1, f2, by rw [f3]; exact h4, by rw [f3]; exact h5, f4, f5, f6, f7⟩

/-- The hypotheses of `http_open_body` are met. -/
theorem http_open_example : OpenHead "GET".toList 1 1 200 [exField "Connection" " close"]
    "HTTP/1.1 200 OK\r\nConnection: close\r\n\r\n".toList := by
  refine ⟨exStatus "200" "OK", ?_, ?_, ?_, by decide +kernel, by decide +kernel, by decide +kernel⟩
  · exact exStatus_ok _ _ _ (by decide +kernel) (by decide +kernel) (by decide +kernel)
  · intro f hf
    rcases List.mem_cons.mp hf with rfl | hf
    · exact exField_ok _ _ (by decide +kernel) (by decide +kernel) (by decide +kernel)
    · cases hf
  · unfold bodyless
    decide +kernel

/-! ## Reading comes to an end -/

/-- What a round makes smaller. -/
def weight (r : Resp) (b : Buf) : Nat := 2 * b.pieces.flatten.length + match needs r with
  | .bytes _ => 1
  | _ => 0

theorem ended_needs (r : Resp) (evs : List Ev) (h : r.mode = .done) : ∀ n, needs (ended r evs).1 ≠ .bytes n := by
  intro n
  unfold ended finish
  rw [if_pos h]
  dsimp only
  split
  · intro e; cases e
  · unfold needs; rw [h]; intro e; cases e

/-- After a block of which too much was there nothing more is asked for in this block. -/
theorem neg_needs {r : Resp} {n : Int} (h : needs r = .bytes n) (hn : n < 0) (d : Str) : ∀ k, needs (recvBytes r d).1 ≠ .bytes k := by
  intro k
  unfold needs at h
  split at h
  · cases h
  · cases h
  · cases h
  · cases h
  · cases h
  · next hm =>
    cases hl : r.length with
    | none => rw [hl] at h; dsimp only at h; cases h; omega
    | some l =>
      rw [hl] at h
      dsimp only at h
      split at h
      · cases h; omega
      · split at h
        · cases h
          unfold recvBytes
          rw [hm, hl]
          dsimp only [Option.getD]
          rw [if_pos (by omega)]
          intro e
          cases e
        · cases h
  · next hm =>
    cases hl : r.length with
    | none => rw [hl] at h; dsimp only at h; cases h; omega
    | some l =>
      rw [hl] at h
      dsimp only at h
      split at h
      · cases h; omega
      · next hl0 =>
        split at h
        · cases h
          unfold recvBytes
          rw [hm, hl]
          dsimp only [Option.getD]
          rw [if_pos hl0]
          refine ended_needs _ _ ?_ k
          show (if _ then Mode.done else Mode.data) = _
          rw [if_pos (by omega)]
        · cases h

theorem weight_le (r : Resp) (b : Buf) : weight r b ≤ 2 * b.pieces.flatten.length + 1 := by
  unfold weight
  split <;> omega

theorem round_less {m : Str} {r r' : Resp} {b b' : Buf} {last last' : Option Str} {evs : List Ev}
    (hb : b.size ≤ b.pieces.flatten.length) (h : round m r b last = .ok (.next r' b' last' evs)) :
    b'.size ≤ b'.pieces.flatten.length ∧ weight r' b' < weight r b := by
  unfold round at h
  split at h
  · next hn =>
    split at h
    · cases h
    · next line rest hc =>
      obtain ⟨h1, h2⟩ := cutLine_spec hc
      have h3 := h2.length_le
      have hlen := congrArg List.length h1
      rw [List.length_append] at hlen
      simp only [crlfStr, List.length_cons, List.length_nil] at h3
      split at h
      · cases h
      · cases h
        have hr : (Buf.pieces (if rest ≠ [] then ⟨[rest], rest.length⟩ else ⟨[], 0⟩)).flatten = rest := by
          split
          · simp
          · next hr => simp at hr; rw [hr]; rfl
        refine ⟨?_, ?_⟩
        · rw [hr]
          split
          · exact Int.le_refl _
          · exact Int.natCast_nonneg _
        · have := weight_le r' (if rest ≠ [] then ⟨[rest], rest.length⟩ else ⟨[], 0⟩)
          rw [hr] at this
          unfold weight at this ⊢
          rw [hn, hr] at *
          dsimp only at *
          omega
  · next n hn =>
    have hw : weight r b = 2 * b.pieces.flatten.length + 1 := by unfold weight; rw [hn]
    split at h
    · split at h
      · cases h
        refine ⟨Int.le_refl _, ?_⟩
        have := weight_le (recvBytes r b.pieces.flatten).1 ⟨[], 0⟩
        simp only [List.flatten_nil, List.length_nil] at this
        omega
      · cases h
    · split at h
      · cases h
      · split at h
        · next hneg =>
          cases hl : last with
          | none => rw [hl] at h; cases h
          | some d =>
            rw [hl] at h
            cases h
            refine ⟨?_, ?_⟩
            · dsimp only; omega
            · have := neg_needs hn hneg d
              rw [hw]
              unfold weight
              dsimp only
              split
              · next k hk => exact absurd hk (this k)
              · omega
        · have hnn : n.toNat ≤ b.pieces.flatten.length := by omega
          obtain ⟨qs, e1, e2⟩ := takePieces_spec b.pieces n.toNat (by omega) hnn
          rw [e1] at h
          cases h
          have hq := congrArg List.length e2
          rw [List.length_drop] at hq
          refine ⟨?_, ?_⟩
          · dsimp only
            rw [List.length_take]
            omega
          · have := weight_le (recvBytes r (b.pieces.flatten.take n.toNat)).1 ⟨qs, b.size - (b.pieces.flatten.take n.toNat).length⟩
            dsimp only at this
            omega
  · cases h
  · cases h

theorem loop_ends_aux (m : Str) : ∀ (k k' : Nat) (r : Resp) (b : Buf) (last : Option Str), b.size ≤ b.pieces.flatten.length →
    weight r b < k → weight r b < k' → loop m k r b last = loop m k' r b last
  | 0, _, _, _, _, _, h, _ => by omega
  | _, 0, _, _, _, _, _, h => by omega
  | k + 1, k' + 1, r, b, last, hb, h, h' => by
    unfold loop
    cases hr : round m r b last with
    | error e => rfl
    | ok x =>
      cases x with
      | blocked => rfl
      | complete => rfl
      | next r' b' last' evs =>
        obtain ⟨h1, h2⟩ := round_less hb hr
        dsimp only
        rw [loop_ends_aux m k k' r' b' last' h1 (by omega) (by omega)]

/-- **C234.**  Whatever arrives, reading it comes to an end: after a number of rounds that is bounded by the size of what has
arrived nothing changes any more. -/
theorem http_reading_ends (m : Str) (r : Resp) (b : Buf) (hb : b.size ≤ b.pieces.flatten.length) (d : Str) (k : Nat)
    (hk : 2 * (b.pieces.flatten.length + d.length) + 3 ≤ k) :
    loop m k r ⟨b.pieces ++ [d], b.size + d.length⟩ none = receive m r b d := by
  have hf : (Buf.pieces ⟨b.pieces ++ [d], b.size + d.length⟩).flatten.length = b.pieces.flatten.length + d.length := by simp
  have hw := weight_le r ⟨b.pieces ++ [d], b.size + d.length⟩
  rw [hf] at hw
  unfold receive
  exact loop_ends_aux m _ _ r _ none (by rw [hf]; dsimp only; omega) (by omega) (by rw [hf]; omega)

theorem loop_bounded (m : Str) : ∀ (k : Nat) (r : Resp) (b : Buf) (last : Option Str) (x : Received), b.size ≤ b.pieces.flatten.length →
    loop m k r b last = .ok x → x.b.size ≤ x.b.pieces.flatten.length
  | 0, _, _, _, _, _, h => by cases h
  | k + 1, r, b, last, x, hb, h => by
    unfold loop at h
    cases hr : round m r b last with
    | error e => rw [hr] at h; cases h
    | ok y =>
      rw [hr] at h
      cases y with
      | blocked => cases h; exact hb
      | complete => cases h; exact hb
      | next r' b' last' evs =>
        dsimp only at h
        cases hl : loop m k r' b' last' with
        | error e => rw [hl] at h; cases h
        | ok z =>
          rw [hl] at h
          cases h
          exact loop_bounded m k r' b' last' z (round_less hb hr).1 hl

/-- **C234.**  The hypothesis of `http_reading_ends` holds of a new connection and after everything that is received: the size
that is kept is never more than what is there. -/
theorem http_buffer_bounded (m : Str) (r : Resp) (b : Buf) (hb : b.size ≤ b.pieces.flatten.length) (d : Str) (x : Received)
    (h : receive m r b d = .ok x) : x.b.size ≤ x.b.pieces.flatten.length :=
  loop_bounded m _ _ _ _ _ (by
    simp only [List.flatten_append, List.flatten_cons, List.flatten_nil, List.append_nil, List.length_append]
    omega) h

/-- **C234.**  A new connection has an empty buffer. -/
theorem http_buffer_new : (Buf.size {}) ≤ ((Buf.pieces {}).flatten.length : Int) := by decide

end Verif.Props
