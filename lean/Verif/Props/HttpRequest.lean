import Verif.Props.HttpMessage
import Verif.Lemmas.XmlUtils
import Verif.Lemmas.Paging

/-!
# HTTP requests

C238: the body of a request is sent as it is announced.  C239: empty bodies in chunks.  C240: the headers of a request.
C241: values of headers that end a line.
-/

namespace Verif.Props

open Verif Verif.Http Verif.Http.Msg Verif.Spec.HttpMessage

/-! ## Bodies -/

theorem hexDigit_facts (n : Nat) : Py.isHex (Py.hexDigitChar n) = true ∧ Py.hexVal (Py.hexDigitChar n) = n % 16 := by
  have key : ∀ n : Fin 16, Py.isHex (Py.hexDigitChar n.val) = true ∧ Py.hexVal (Py.hexDigitChar n.val) = n.val := by decide
  have : Py.hexDigitChar n = Py.hexDigitChar (n % 16) := by simp [Py.hexDigitChar]
  rw [this]
  exact key ⟨n % 16, Nat.mod_lt _ (by decide)⟩

theorem hexText_hex (n : Nat) : Hexadecimal (hexText n) n := by
  induction n using Nat.strongRecOn with
  | _ n ih =>
    unfold hexText
    split
    · next h =>
      refine ⟨by simp, by simp [(hexDigit_facts n).1], ?_⟩
      simp [Py.digitsVal, (hexDigit_facts n).2]
      omega
    · next h =>
      obtain ⟨h1, h2, h3⟩ := ih (n / 16) (by omega)
      refine ⟨by simp, ?_, ?_⟩
      · rw [List.all_append, h2]
        simp [(hexDigit_facts (n % 16)).1]
      · unfold Py.digitsVal at h3 ⊢
        rw [List.foldl_append, h3]
        simp [(hexDigit_facts (n % 16)).2]
        omega

/-- A chunk as the client writes it. -/
def ownChunk (d : Str) : Chunk := ⟨hexText d.length, [], d⟩

theorem ownChunk_text (d : Str) : (ownChunk d).text = chunk d := by
  unfold ownChunk Chunk.text chunk
  simp [eol, crlfStr]

theorem ownChunk_ok {d : Str} (h : d ≠ []) (hs : d.length + 2 < 2 ^ 63) : (ownChunk d).OK :=
  ⟨hexText_hex _, h, hs, (fun _ hc => nomatch hc), (fun _ _ e => nomatch e)⟩

/-- Chunks as the client writes them. -/
def ownChunks (ds : List Str) : Chunks := ⟨ds.map ownChunk, ['0'], [], []⟩

theorem zero_hex : Hexadecimal ['0'] 0 := by unfold Hexadecimal; decide

theorem ownChunks_ok {ds : List Str} (h : ∀ d ∈ ds, d ≠ [] ∧ d.length + 2 < 2 ^ 63) : (ownChunks ds).OK where
  chunks := by
    intro x hx
    obtain ⟨d, hd, rfl⟩ := List.mem_map.mp hx
    exact ownChunk_ok (h d hd).1 (h d hd).2
  zero := zero_hex
  ext := ⟨(fun _ hc => nomatch hc), (fun _ _ e => nomatch e)⟩
  trailer := fun f hf => nomatch hf

theorem ownChunks_text (ds : List Str) : (ownChunks ds).text = ds.flatMap chunk ++ lastChunk := by
  have : (ds.map ownChunk).flatMap Chunk.text = ds.flatMap chunk := by
    induction ds with
    | nil => rfl
    | cons d ds ih => rw [List.map_cons, List.flatMap_cons, List.flatMap_cons, ih, ownChunk_text]
  unfold ownChunks Chunks.text
  dsimp only
  rw [this]
  simp [lastChunk, eol, crlfStr]

theorem ownChunks_data (ds : List Str) : (ownChunks ds).data = ds.flatten := by
  unfold ownChunks Chunks.data
  dsimp only
  induction ds with
  | nil => rfl
  | cons d ds ih => rw [List.map_cons, List.flatMap_cons, List.flatten_cons, ih]; rfl

/-- What a stream returns: only at its end is it nothing. -/
def StreamOK (s : Stream) : Prop := ∀ d ∈ s, d ≠ []

theorem read_spec {size : Nat} (h0 : 0 < size) {d : Str} {ds : Stream} (h : StreamOK (d :: ds)) :
    ∃ x ys, Stream.read size (d :: ds) = (x, ys) ∧ x ≠ [] ∧ x.length ≤ size ∧ StreamOK ys ∧ (d :: ds).flatten = x ++ ys.flatten := by
  have hd := h d List.mem_cons_self
  by_cases hl : d.length ≤ size
  · exact ⟨d, ds, by simp only [Stream.read]; rw [if_pos hl], hd, hl, fun e he => h e (List.mem_cons_of_mem _ he), rfl⟩
  · refine ⟨d.take size, d.drop size :: ds, by simp only [Stream.read]; rw [if_neg hl], ?_, List.length_take_le _ _, ?_, ?_⟩
    · intro e
      have := congrArg List.length e
      rw [List.length_take] at this
      simp only [List.length_nil] at this
      omega
    · intro e he
      cases he with
      | head =>
        intro e
        have := congrArg List.length e
        rw [List.length_drop] at this
        simp only [List.length_nil] at this
        omega
      | tail _ he => exact h e (List.mem_cons_of_mem _ he)
    · rw [List.flatten_cons, List.flatten_cons, ← List.append_assoc, List.take_append_drop]

theorem lastChunk_ne : lastChunk ≠ [] := by decide

theorem chunk_ne (d : Str) : chunk d ≠ [] := by
  unfold chunk
  simp [crlfStr]

/-- A stream is sent in chunks. -/
theorem sendBody_chunked {size : Nat} (h0 : 0 < size) : ∀ (n : Nat) (s : Stream), StreamOK s → s.flatten.length ≤ n →
    ∀ (k : Nat) (len : Option Int) (pos : Nat), n + 2 ≤ k →
    ∃ xs : List Str, (∀ x ∈ xs, x ≠ [] ∧ x.length ≤ size) ∧ xs.flatten = s.flatten ∧
      sendBody size k ⟨.stream s, true, len, pos, false⟩ = .ok (xs.flatMap chunk ++ lastChunk) := by
  have hend : ∀ (k : Nat) (len : Option Int) (pos : Nat), 2 ≤ k →
      sendBody size k ⟨.stream [], true, len, pos, false⟩ = .ok lastChunk := by
    intro k len pos hk
    obtain ⟨k, rfl⟩ : ∃ j, k = j + 2 := ⟨k - 2, by omega⟩
    unfold sendBody
    simp only [readBody, Stream.read, Bool.false_eq_true, if_false, if_true, ne_eq, not_true_eq_false]
    rw [if_neg lastChunk_ne]
    unfold sendBody
    simp [readBody, Except.map]
  intro n
  induction n with
  | zero =>
    intro s hs hn k len pos hk
    cases s with
    | nil => exact ⟨[], by simp, rfl, hend k len pos (by omega)⟩
    | cons d ds =>
      have := hs d List.mem_cons_self
      rw [List.flatten_cons, List.length_append] at hn
      exact absurd (List.length_eq_zero_iff.mp (by omega : d.length = 0)) this
  | succ n ih =>
    intro s hs hn k len pos hk
    cases s with
    | nil => exact ⟨[], by simp, rfl, hend k len pos (by omega)⟩
    | cons d ds =>
      obtain ⟨x, ys, h1, h2, h3, h4, h5⟩ := read_spec h0 hs
      have hx : 0 < x.length := List.length_pos_iff.mpr h2
      obtain ⟨k, rfl⟩ : ∃ j, k = j + 1 := ⟨k - 1, by omega⟩
      rw [h5, List.length_append] at hn
      obtain ⟨xs, e1, e2, e3⟩ := ih ys h4 (by omega) k len (pos + x.length) (by omega)
      refine ⟨x :: xs, ?_, by rw [List.flatten_cons, e2, h5], ?_⟩
      · intro y hy
        cases hy with
        | head => exact ⟨h2, h3⟩
        | tail _ hy => exact e1 y hy
      · unfold sendBody
        simp only [readBody, h1, Bool.false_eq_true, if_false, if_true]
        rw [if_pos h2]
        dsimp only
        rw [if_neg (chunk_ne x), e3]
        simp [Except.map]

/-- A stream is sent up to its length. -/
theorem sendBody_sized {size : Nat} (h0 : 0 < size) : ∀ (n : Nat) (s : Stream), StreamOK s → ∀ (k len pos : Nat), len - pos ≤ n →
    n + 2 ≤ k → pos ≤ len →
    sendBody size k ⟨.stream s, false, some (len : Int), pos, false⟩ =
      if len - pos ≤ s.flatten.length then .ok (s.flatten.take (len - pos)) else .error .http := by
  have hend : ∀ (s : Stream) (k len pos : Nat), len - pos = 0 → 1 ≤ k →
      sendBody size k ⟨.stream s, false, some (len : Int), pos, false⟩ = .ok [] := by
    intro s k len pos hl hk
    obtain ⟨k, rfl⟩ : ∃ j, k = j + 1 := ⟨k - 1, by omega⟩
    unfold sendBody
    simp [readBody, hl]
  intro n
  induction n with
  | zero =>
    intro s _ k len pos hl hk hp
    rw [hend s k len pos (by omega) (by omega), if_pos (by omega), show len - pos = 0 from by omega]
    rfl
  | succ n ih =>
    intro s hs k len pos hl hk hp
    by_cases hz : len - pos = 0
    · rw [hend s k len pos hz (by omega), if_pos (by omega), hz]
      rfl
    · obtain ⟨k, rfl⟩ : ∃ j, k = j + 1 := ⟨k - 1, by omega⟩
      cases s with
      | nil =>
        unfold sendBody
        simp [readBody, Stream.read, hz]
      | cons d ds =>
        obtain ⟨x, ys, h1, h2, h3, h4, h5⟩ := read_spec (size := min (len - pos) size) (by omega) hs
        have hx : 0 < x.length := List.length_pos_iff.mpr h2
        unfold sendBody
        simp only [readBody, Bool.false_eq_true, if_false, Int.toNat_natCast]
        rw [if_pos hz, h1]
        dsimp only
        rw [if_pos h2]
        dsimp only
        rw [if_neg h2, ih ys h4 k len (pos + x.length) (by omega) (by omega) (by omega), h5, List.length_append, List.take_append,
          List.take_of_length_le (i := len - pos) (l := x) (by omega)]
        by_cases hc : len - (pos + x.length) ≤ ys.flatten.length
        · rw [if_pos hc, if_pos (by omega), show len - (pos + x.length) = len - pos - x.length from by omega]
          rfl
        · rw [if_neg hc, if_neg (by omega)]
          rfl

theorem sendBody_text {size : Nat} (d : Str) (len : Option Int) (k : Nat) (hk : 2 ≤ k) :
    sendBody size k ⟨.text d, false, len, 0, false⟩ = .ok d := by
  obtain ⟨k, rfl⟩ : ∃ j, k = j + 2 := ⟨k - 2, by omega⟩
  unfold sendBody
  simp only [readBody, Bool.false_eq_true, if_false]
  split
  · next h => rw [h]
  · unfold sendBody
    simp [readBody, Except.map]

theorem sendBody_text_chunked {size : Nat} (d : Str) (len : Option Int) (k : Nat) (hk : 2 ≤ k) :
    sendBody size k ⟨.text d, true, len, 0, false⟩ = .ok (chunk d ++ lastChunk) := by
  obtain ⟨k, rfl⟩ : ∃ j, k = j + 2 := ⟨k - 2, by omega⟩
  unfold sendBody
  simp only [readBody, Bool.false_eq_true, if_false, if_true]
  rw [if_neg (by simp [chunk_ne])]
  unfold sendBody
  simp [readBody, Except.map]

/-- The data of a body. -/
def Body.content : Body → Str
  | .text d => d
  | .stream s => s.flatten

/-- The text of a body, as `CalculateTransferLength` sees it. -/
def Body.known : Body → Option Str
  | .text d => some d
  | .stream _ => none

/-- A length that is set by the caller is written in digits. -/
def LengthOK (h : Headers) : Prop := ∀ v, getHeader h "Content-Length".toList = some v → ∃ n, Decimal v n

theorem decimal_contentLength {h : Headers} {v : Str} {n : Nat} (hv : getHeader h "Content-Length".toList = some v) (hd : Decimal v n) :
    contentLength h = .ok (some n) := by
  unfold contentLength
  rw [hv]
  dsimp only
  have := strip_digits (a := []) (b := []) (fun c hc => nomatch hc) hd
  rw [List.nil_append, List.append_nil] at this
  rw [this, pyInt_decimal hd]

theorem strNat_decimal (n : Nat) : Decimal (Py.strNat n) n :=
  ⟨XmlUtils.strNat_ne_nil n, XmlUtils.strNat_all n, XmlUtils.strNat_val n⟩

theorem getHeader_put (h : Headers) (n v name : Str) : getHeader (setHeader h n (some v) false) name =
    if sameName n name then some v else getHeader h name := by
  unfold setHeader getHeader sameName
  by_cases hn : Py.lower n = Py.lower name
  · rw [hn]
    cases hg : Dict.get h (Py.lower name) with
    | none => simp [Dict.get_set]
    | some o => simp [Dict.get_set]
  · cases hg : Dict.get h (Py.lower n) with
    | none => simp [Dict.get_set, hn, Ne.symm hn]
    | some o => simp [Dict.get_set, hn, Ne.symm hn]

theorem requestLength_plain {method : Str} {h : Headers} {body : Option Str}
    (hid : ∀ e, getHeader h "Transfer-Encoding".toList = some e → e = "identity".toList) : requestLength method h body =
      match contentLength h with
      | .error e => .error e
      | .ok (some n) =>
        match body with
        | some d => if (d.length : Int) < n ∨ (d.length : Int) > n then .error .http else .ok (h, false, some n)
        | none => .ok (h, false, some n)
      | .ok none =>
        match body with
        | none => .ok (setHeader h "Transfer-Encoding".toList (some "chunked".toList) false, true, none)
        | some d =>
          if d ≠ [] ∨ ¬ (Py.lower method ∈ ["get".toList, "head".toList, "delete".toList]) then
            .ok (setHeader h "Content-Length".toList (some (Py.strNat d.length)) false, false, some d.length)
          else .ok (h, false, none) := by
  unfold requestLength transferEncoding
  cases hte : getHeader h "Transfer-Encoding".toList with
  | none => rfl
  | some e =>
    dsimp only
    rw [if_pos (decide_eq_true (hid e hte))]
    rfl

theorem requestLength_encoded {method : Str} {h : Headers} {body : Option Str} {e : Str}
    (hte : getHeader h "Transfer-Encoding".toList = some e) (he : e ≠ "identity".toList) :
    requestLength method h body = .ok (h, true, none) := by
  unfold requestLength transferEncoding
  rw [hte]
  dsimp only
  rw [if_neg (fun h => he (of_decide_eq_true h))]

/-- **C238.**  What is sent as the body of a request is what its headers announce: chunks that hold the data if it is sent in
chunks, as many bytes of the data as the length says, or nothing if neither is announced.  If a stream ends before its length,
sending fails.  Only an empty text sent in chunks is excepted, see `http_empty_chunks_refuted`. -/
theorem http_body_sent {size : Nat} (h0 : 0 < size) (hz : size + 2 < 2 ^ 63) (method : Str) (h : Headers) (hl : LengthOK h) (body : Body)
    (hs : ∀ s, body = .stream s → StreamOK s) (hb : (Body.content body).length + 2 < 2 ^ 63)
    {h' : Headers} {ch : Bool} {len : Option Int} (hr : requestLength method h (Body.known body) = .ok (h', ch, len))
    (he : ch = true → body ≠ .text []) :
    (∃ N, ∀ k, N ≤ k → ∃ text data, sendBody size k ⟨body, ch, len, 0, false⟩ = .ok text ∧
      RequestBody (getHeader h' "Transfer-Encoding".toList) (getHeader h' "Content-Length".toList) text data ∧
      data <+: Body.content body ∧ (len = none → data = Body.content body)) ∨
    (∃ n : Nat, len = some (n : Int) ∧ (Body.content body).length < n ∧ ∃ N, ∀ k, N ≤ k →
      sendBody size k ⟨body, ch, len, 0, false⟩ = .error .http) := by
  have hchunk : ∀ e, getHeader h' "Transfer-Encoding".toList = some e → e ≠ "identity".toList → ch = true → len = none →
      (∃ N, ∀ k, N ≤ k → ∃ text data, sendBody size k ⟨body, ch, len, 0, false⟩ = .ok text ∧
      RequestBody (getHeader h' "Transfer-Encoding".toList) (getHeader h' "Content-Length".toList) text data ∧
      data <+: Body.content body ∧ (len = none → data = Body.content body)) := by
    intro e h1 h2 h3 h4
    subst h3 h4
    rw [h1]
    cases body with
    | text d =>
      have hd : d ≠ [] := by intro e; exact he rfl (by rw [e])
      refine ⟨2, fun k hk => ⟨_, d, sendBody_text_chunked d none k hk, ?_, List.prefix_refl _, fun _ => rfl⟩⟩
      have := RequestBody.chunked e (getHeader h' "Content-Length".toList) (ownChunks [d]) h2
        (ownChunks_ok (by intro x hx; simp at hx; subst hx; exact ⟨hd, hb⟩)) rfl
      rw [ownChunks_text, ownChunks_data] at this
      simpa using this
    | stream s =>
      refine ⟨s.flatten.length + 2, fun k hk => ?_⟩
      obtain ⟨xs, e1, e2, e3⟩ := sendBody_chunked h0 s.flatten.length s (hs s rfl) (Nat.le_refl _) k none 0 hk
      refine ⟨_, s.flatten, e3, ?_, List.prefix_refl _, fun _ => rfl⟩
      have := RequestBody.chunked e (getHeader h' "Content-Length".toList) (ownChunks xs) h2
        (ownChunks_ok (fun x hx => ⟨(e1 x hx).1, by have := (e1 x hx).2; omega⟩)) rfl
      rw [ownChunks_text, ownChunks_data, e2] at this
      exact this
  have hsame : sameName "Content-Length".toList "Transfer-Encoding".toList = false := by decide +kernel
  have hsame2 : sameName "Content-Length".toList "Content-Length".toList = true := by decide +kernel
  have hsame3 : sameName "Transfer-Encoding".toList "Transfer-Encoding".toList = true := by decide +kernel
  by_cases hid' : ∀ e, getHeader h "Transfer-Encoding".toList = some e → e = "identity".toList
  · rw [requestLength_plain hid'] at hr
    cases hcl : getHeader h "Content-Length".toList with
    | some v =>
      obtain ⟨n, hn⟩ := hl v hcl
      rw [decimal_contentLength hcl hn] at hr
      cases body with
      | text d =>
        dsimp only [Body.known] at hr
        split at hr
        · cases hr
        · next hlen =>
          cases hr
          left
          refine ⟨2, fun k hk => ⟨d, d, sendBody_text d _ k hk, ?_, List.prefix_refl _, fun _ => rfl⟩⟩
          rw [hcl]
          have : n = d.length := by omega
          exact .sized _ v d hid' (this ▸ hn)
      | stream s =>
        cases hr
        have hsend := sendBody_sized h0 n s (hs s rfl)
        by_cases hc : n ≤ s.flatten.length
        · left
          refine ⟨n + 2, fun k hk => ⟨s.flatten.take n, s.flatten.take n, ?_, ?_, List.take_prefix _ _, fun e => nomatch e⟩⟩
          · have := hsend k n 0 (by omega) hk (by omega)
            rw [if_pos (by omega)] at this
            exact this
          · rw [hcl]
            refine .sized _ v _ hid' ?_
            rw [List.length_take, Nat.min_eq_left hc]
            exact hn
        · right
          refine ⟨n, rfl, by show s.flatten.length < n; omega, n + 2, fun k hk => ?_⟩
          have := hsend k n 0 (by omega) hk (by omega)
          rw [if_neg (by omega)] at this
          exact this
    | none =>
      have : contentLength h = .ok none := by unfold contentLength; rw [hcl]
      rw [this] at hr
      cases body with
      | text d =>
        dsimp only [Body.known] at hr
        split at hr
        · cases hr
          left
          refine ⟨2, fun k hk => ⟨d, d, sendBody_text d _ k hk, ?_, List.prefix_refl _, fun _ => rfl⟩⟩
          rw [getHeader_put, getHeader_put, hsame, hsame2]
          exact .sized _ _ d hid' (strNat_decimal _)
        · next hd =>
          cases hr
          have hd' : d = [] := by
            cases d with
            | nil => rfl
            | cons => exact absurd (.inl (by simp)) hd
          subst hd'
          left
          refine ⟨2, fun k hk => ⟨[], [], sendBody_text [] _ k hk, ?_, List.prefix_refl _, fun _ => rfl⟩⟩
          rw [hcl]
          exact .none _ hid'
      | stream s =>
        cases hr
        left
        refine hchunk "chunked".toList ?_ (by decide +kernel) rfl rfl
        rw [getHeader_put, hsame3]
        rfl
  · obtain ⟨e, hte⟩ := Classical.not_forall.mp hid'
    obtain ⟨hte, he'⟩ := Classical.not_imp.mp hte
    rw [requestLength_encoded hte he'] at hr
    cases hr
    exact .inl (hchunk e hte he' rfl rfl)

/-- The hypotheses of `http_body_sent` are met: a stream in two pieces is sent in chunks of at most four bytes. -/
theorem http_body_example :
    requestLength "POST".toList [] (Body.known (.stream ["hello".toList, " world".toList])) =
      .ok ([("transfer-encoding".toList, "Transfer-Encoding".toList, "chunked".toList)], true, none) ∧
    sendBody 4 9 ⟨.stream ["hello".toList, " world".toList], true, none, 0, false⟩ =
      .ok "4\r\nhell\r\n1\r\no\r\n4\r\n wor\r\n2\r\nld\r\n0\r\n\r\n".toList := by
  constructor <;> decide +kernel

/-- **C239 refuted.**  An empty text that is sent in chunks is followed by a second end: the chunk of size zero is the end
already, so that five more bytes go before the next request. -/
theorem http_empty_chunks_refuted : ∃ (h : Headers) (ch : Bool) (len : Option Int) (end' : Str),
    requestLength "POST".toList [("transfer-encoding".toList, "Transfer-Encoding".toList, "chunked".toList)] (some []) = .ok (h, ch, len) ∧
    sendBody 4 9 ⟨.text [], ch, len, 0, false⟩ = .ok ((ownChunks []).text ++ end') ∧ end' = "0\r\n\r\n".toList :=
  ⟨[("transfer-encoding".toList, "Transfer-Encoding".toList, "chunked".toList)], true, none, "0\r\n\r\n".toList, by decide +kernel,
    by decide +kernel, rfl⟩

/-- **C239 (partial).**  A text that is not empty is sent as one chunk and the end.  Missing: the empty text, see
`http_empty_chunks_refuted`. -/
theorem http_text_chunks_partial {size : Nat} (d : Str) (hd : d ≠ []) (hs : d.length + 2 < 2 ^ 63) (len : Option Int) (k : Nat) (hk : 2 ≤ k) :
    sendBody size k ⟨.text d, true, len, 0, false⟩ = .ok (ownChunks [d]).text ∧ (ownChunks [d]).OK ∧ (ownChunks [d]).data = d := by
  refine ⟨?_, ownChunks_ok (by intro x hx; simp at hx; subst hx; exact ⟨hd, hs⟩), by rw [ownChunks_data]; simp⟩
  rw [sendBody_text_chunked d len k hk, ownChunks_text]
  simp

/-! ## Headers -/

/-- Headers as they are kept: a name under its small letters, once. -/
def HeadersOK (h : Headers) : Prop := (Dict.keys h).Nodup ∧ ∀ p ∈ h, p.1 = Py.lower p.2.1

theorem headersOK_new : HeadersOK [] := ⟨List.nodup_nil, fun _ hp => nomatch hp⟩

theorem headers_del_ok {h : Headers} (hh : HeadersOK h) (k : Str) : HeadersOK (Dict.del h k) := by
  unfold Dict.del
  refine ⟨?_, fun p hp => hh.2 p (List.mem_filter.mp hp).1⟩
  exact List.Nodup.sublist (List.Sublist.map _ List.filter_sublist) hh.1

theorem headers_set_ok {h : Headers} (hh : HeadersOK h) (n v : Str) : HeadersOK (Dict.set h (Py.lower n) (n, v)) := by
  have := headers_del_ok hh (Py.lower n)
  unfold Dict.set
  refine ⟨?_, ?_⟩
  · show (Py.lower n :: (h.filter _).map _).Nodup
    refine List.nodup_cons.mpr ⟨?_, this.1⟩
    intro hm
    obtain ⟨p, hp, he⟩ := List.mem_map.mp hm
    have := (List.mem_filter.mp hp).2
    simp at this
    exact this he
  · intro p hp
    cases hp with
    | head => rfl
    | tail _ hp => exact this.2 p hp

/-- Headers are kept so whatever is set. -/
theorem setHeader_ok {h : Headers} (hh : HeadersOK h) (n : Str) (v : Option Str) (app : Bool) : HeadersOK (setHeader h n v app) := by
  unfold setHeader
  split
  · exact headers_del_ok hh _
  · split
    · exact headers_set_ok hh _ _
    · exact headers_set_ok hh _ _

/-- A header as a field. -/
def asField (n v : Str) : Field := ⟨n, ' ' :: v, []⟩

theorem asField_text (n v : Str) : (asField n v).text = headerLine n v := by
  unfold asField Field.text Field.content headerLine
  simp [eol, crlfStr]

/-- The fields of a request. -/
def fieldsOf (h : Headers) : List Field := (headerList h).filterMap fun k => (Dict.get h k).map fun p => asField p.1 p.2

theorem fieldsOf_text (h : Headers) (ks : List Str) :
    (ks.flatMap fun k => match Dict.get h k with | some (n, v) => headerLine n v | none => []) =
    (ks.filterMap fun k => (Dict.get h k).map fun p => asField p.1 p.2).flatMap Field.text := by
  induction ks with
  | nil => rfl
  | cons k ks ih =>
    rw [List.flatMap_cons, ih, List.filterMap_cons]
    cases hg : Dict.get h k with
    | none => rfl
    | some p =>
      simp only [Option.map_some]
      rw [List.flatMap_cons, asField_text]

theorem get_name {h : Headers} (hh : HeadersOK h) {k : Str} {p : Str × Str} (hg : Dict.get h k = some p) : Py.lower p.1 = k :=
  (hh.2 _ (Dict.mem_of_get hg)).symm

theorem values_keys {h : Headers} (hh : HeadersOK h) (name : Str) : ∀ (ks : List Str), ks.Nodup →
    valuesOf (ks.filterMap fun k => (Dict.get h k).map fun p => asField p.1 p.2) name =
      if Py.lower name ∈ ks then (match Dict.get h (Py.lower name) with | some p => [' ' :: p.2] | none => []) else []
  | [], _ => rfl
  | k :: ks, hn => by
    obtain ⟨h1, h2⟩ := List.nodup_cons.mp hn
    have ih := values_keys hh name ks h2
    rw [List.filterMap_cons]
    cases hg : Dict.get h k with
    | none =>
      simp only [Option.map_none]
      rw [ih]
      by_cases hk : Py.lower name = k
      · rw [hk, if_neg h1, if_pos List.mem_cons_self, hg]
      · by_cases hm : Py.lower name ∈ ks
        · rw [if_pos hm, if_pos (List.mem_cons_of_mem _ hm)]
        · rw [if_neg hm, if_neg (by simp [hk, hm])]
    | some p =>
      simp only [Option.map_some]
      have hname := get_name hh hg
      have hs : sameName (asField p.1 p.2).name name = decide (k = Py.lower name) := by
        show decide (Py.lower p.1 = Py.lower name) = _
        rw [hname]
      unfold valuesOf at ih ⊢
      rw [List.filter_cons, hs]
      by_cases hk : k = Py.lower name
      · rw [decide_eq_true hk]
        simp only [if_true]
        rw [List.map_cons, ih, if_neg (by rw [← hk]; exact h1), if_pos (by rw [hk]; exact List.mem_cons_self), ← hk, hg]
        simp [Field.content, asField]
      · rw [decide_eq_false hk]
        simp only [Bool.false_eq_true, if_false]
        rw [ih]
        by_cases hm : Py.lower name ∈ ks
        · rw [if_pos hm, if_pos (List.mem_cons_of_mem _ hm)]
        · rw [if_neg hm, if_neg (by simp [Ne.symm hk, hm])]

/-- A header that can be written. -/
def Writable (p : Str × Str) : Prop :=
  Inline p.1 ∧ ':' ∉ p.1 ∧ (∀ c t, p.1 = c :: t → c ≠ ' ' ∧ c ≠ '\t') ∧ Inline p.2

/-- The value that is sent for a header: that of the user, or else, for `Authorization`, the credentials. -/
def sentValue (h : Headers) (credentials : Option Str) (name : Str) : Option Str :=
  match getHeader h name with
  | some v => some v
  | none => if Py.lower name = "authorization".toList then credentials else none

theorem sent_value (h : Headers) (credentials : Option Str) (name : Str) :
    getHeader (withCredentials h credentials) name = sentValue h credentials name := by
  have hl : Py.lower "Authorization".toList = "authorization".toList := by decide +kernel
  unfold withCredentials sentValue
  generalize "Authorization".toList = A at hl
  generalize "authorization".toList = a at hl
  cases hg : getHeader h A with
  | some v =>
    simp only
    cases hn : getHeader h name with
    | some w => rfl
    | none =>
      simp only
      rw [if_neg]
      intro he
      unfold getHeader at hg hn
      rw [hl, ← he] at hg
      rw [hg] at hn
      cases hn
  | none =>
    cases credentials with
    | none =>
      simp only
      cases hn : getHeader h name with
      | some w => rfl
      | none => simp
    | some c =>
      simp only
      rw [getHeader_put]
      unfold sameName
      rw [hl]
      by_cases he : Py.lower name = a
      · rw [if_pos (by simp [he])]
        have : getHeader h name = none := by
          unfold getHeader at hg ⊢
          rw [he, ← hl]
          exact hg
        rw [this]
        simp only
        rw [if_pos he]
      · rw [if_neg (by simp [Ne.symm he])]
        cases getHeader h name with
        | some w => rfl
        | none => simp only; rw [if_neg he]

theorem sent_writable {h : Headers} {credentials : Option Str} (hw : ∀ p ∈ h, Writable p.2) (hc : ∀ c, credentials = some c → Inline c) :
    ∀ p ∈ withCredentials h credentials, Writable p.2 := by
  unfold withCredentials
  split
  · next c hg =>
    have hn : Dict.get h (Py.lower "Authorization".toList) = none := by
      cases hx : Dict.get h (Py.lower "Authorization".toList) with
      | none => rfl
      | some v => unfold getHeader at hg; rw [hx] at hg; cases hg
    intro p hp
    unfold setHeader at hp
    rw [hn] at hp
    simp only [Dict.set, List.mem_cons] at hp
    rcases hp with rfl | hp
    · refine ⟨?_, show ':' ∉ "Authorization".toList by decide +kernel, ?_, hc c rfl⟩
      · show Inline "Authorization".toList
        unfold Inline; decide +kernel
      · intro d t h
        have := congrArg List.head? h
        simp at this
        rw [← this]
        decide
    · exact hw p (List.mem_filter.1 hp).1
  · exact hw

/-- **C240.**  The head of a request is its line, a field for every header that is set, none twice, and the empty line; the value
of every field is that of the header; and if names and values are text within a line, the fields can be read back. -/
theorem http_request_head (method url : Str) (v : HttpVersion) (h : Headers) (hh : HeadersOK h) (credentials : Option Str) :
    ∃ fs : List Field, requestHeader method url v h credentials =
        method ++ [' '] ++ url ++ [' '] ++ v.format ++ eol ++ fs.flatMap Field.text ++ eol ∧
      (∀ name, valuesOf fs name = match sentValue h credentials name with | some v => [' ' :: v] | none => []) ∧
      ((∀ p ∈ h, Writable p.2) → (∀ c, credentials = some c → Inline c) → ∀ f ∈ fs, f.OK) := by
  have hok : HeadersOK (withCredentials h credentials) := by
    unfold withCredentials
    split
    · exact setHeader_ok hh _ _ _
    · exact hh
  refine ⟨fieldsOf (withCredentials h credentials), ?_, ?_, ?_⟩
  · unfold requestHeader
    exact congrArg (fun t => method ++ [' '] ++ url ++ [' '] ++ v.format ++ eol ++ t ++ eol)
      (fieldsOf_text (withCredentials h credentials) (headerList (withCredentials h credentials)))
  · intro name
    rw [← sent_value]
    unfold fieldsOf
    have hp : (headerList (withCredentials h credentials)).Perm (Dict.keys (withCredentials h credentials)) := Paging.stableSort_perm _
    rw [values_keys hok name _ (hp.nodup_iff.mpr hok.1)]
    unfold getHeader
    cases hg : Dict.get (withCredentials h credentials) (Py.lower name) with
    | none => simp
    | some p =>
      rw [if_pos]
      · rfl
      · refine hp.mem_iff.mpr ?_
        exact List.mem_map.mpr ⟨_, Dict.mem_of_get hg, rfl⟩
  · intro hw hc f hf
    have hw := sent_writable hw hc
    unfold fieldsOf at hf
    obtain ⟨k, _, hk⟩ := List.mem_filterMap.mp hf
    obtain ⟨p, hp, rfl⟩ := Option.map_eq_some_iff.mp hk
    obtain ⟨h1, h2, h3, h4⟩ := hw _ (Dict.mem_of_get hp)
    exact ⟨h1, h2, h3, inline_cons (by decide) (by decide) h4, fun l hl => nomatch hl⟩

/-- The hypotheses of `http_request_head` are met. -/
theorem http_head_example :
    HeadersOK (setHeader (setHeader [] "Host".toList (some "example.com".toList) false) "Accept".toList (some "*/*".toList) false) ∧
    requestHeader "GET".toList "/".toList ⟨1, 1⟩
      (setHeader (setHeader [] "Host".toList (some "example.com".toList) false) "Accept".toList (some "*/*".toList) false) none =
      "GET / HTTP/1.1\r\nAccept: */*\r\nHost: example.com\r\n\r\n".toList :=
  ⟨setHeader_ok (setHeader_ok headersOK_new _ _ _) _ _ _, by decide +kernel⟩

/-- **C241 refuted.**  A value with the end of a line in it adds a header to the request that was never set. -/
theorem http_injection_refuted :
    ∃ h : Headers, HeadersOK h ∧ getHeader h "X-Admin".toList = none ∧
      requestHeader "GET".toList "/".toList ⟨1, 1⟩ h none =
        "GET / HTTP/1.1\r\n".toList ++ [asField "X".toList "a".toList, asField "X-Admin".toList "yes".toList].flatMap Field.text ++ eol :=
  ⟨setHeader [] "X".toList (some "a\r\nX-Admin: yes".toList) false, setHeader_ok headersOK_new _ _ _, by decide +kernel, by decide +kernel⟩

/-- **C241 (partial).**  If names and values are text within a line, the fields of a request are those of its headers and no
other.  Missing: values with the end of a line, see `http_injection_refuted`. -/
theorem http_no_injection_partial (method url : Str) (v : HttpVersion) (h : Headers) (hh : HeadersOK h) (credentials : Option Str)
    (hw : ∀ p ∈ h, Writable p.2) (hc : ∀ c, credentials = some c → Inline c) :
    ∃ fs : List Field, (∀ f ∈ fs, f.OK) ∧ requestHeader method url v h credentials =
        method ++ [' '] ++ url ++ [' '] ++ v.format ++ eol ++ fs.flatMap Field.text ++ eol ∧
      ∀ name, sentValue h credentials name = none → valueOf fs name = none := by
  obtain ⟨fs, h1, h2, h3⟩ := http_request_head method url v h hh credentials
  refine ⟨fs, h3 hw hc, h1, ?_⟩
  intro name hn
  unfold valueOf
  rw [h2, hn]
  rfl

end Verif.Props
