import Verif.Model.InputWrapper

/-!
# Bodies of requests as files: properties
-/

namespace Verif.Props.InputWrapper

open Verif Verif.InputWrapper

/-! ## Specification -/

/-- The body of a request: the first `CONTENT_LENGTH` bytes, or all of them. -/
def body (all : Str) : Option Nat → Str
  | some l => all.take l
  | none => all

/-- The first line of a text, with its line feed. -/
def firstLine : Str → Str
  | [] => []
  | c :: cs => if c = '\n' then [c] else c :: firstLine cs

/-- What can be done with a new wrapper of a request, except for seeking beyond the buffer: read
any number of bytes, and seek in the first `k` bytes of the body. -/
inductive Used (size k : Nat) (all : Str) (length : Option Nat) : Wrapper → Prop
  | fresh (plan : List Nat) : Used size k all length (new length k ⟨all, plan⟩)
  | afterRead {w : Wrapper} (n : Nat) : Used size k all length w → Used size k all length (read w n).2
  | afterSeek {w w' : Wrapper} (offset : Int) (whence : Whence) : Used size k all length w →
      seek size w offset whence = some w' → tell w' ≤ k → tell w' ≤ (body all length).length →
      Used size k all length w'

/-! ## Streams and buffers -/

theorem stream_read (s : Stream) (n : Nat) (d : Str) (s' : Stream) (h : s.read (n : Int) = (d, s')) :
    s.data = d ++ s'.data ∧ d.length ≤ n ∧ (n ≠ 0 → s.data ≠ [] → d ≠ []) := by
  unfold Stream.read at h
  have hn : ¬ (n : Int) < 0 := by omega
  simp only [hn, if_false, Int.toNat_natCast] at h
  split at h
  · cases h
    refine ⟨(List.take_append_drop ..).symm, by simp; omega, ?_⟩
    intro h0 h1 h2
    rcases List.take_eq_nil_iff.1 h2 with h3 | h3
    · exact h0 h3
    · exact h1 h3
  · cases h
    refine ⟨(List.take_append_drop ..).symm, by simp; omega, ?_⟩
    intro h0 h1 h2
    rcases List.take_eq_nil_iff.1 h2 with h3 | h3
    · omega
    · exact h1 h3

theorem fill_spec (all : Str) (k : Nat) : ∀ (f : Nat) (s : Stream) (buf : Str), buf.length ≤ k →
    k ≤ buf.length + f → all = buf ++ s.data →
    ∃ buf' s' b, fill f k s buf = (buf', s', b) ∧ all = buf' ++ s'.data ∧
      buf'.length = min k all.length ∧ (b = false → s'.data = []) := by
  intro f
  induction f with
  | zero =>
    intro s buf h1 h2 h3
    refine ⟨buf, s, true, rfl, h3, ?_, fun h => nomatch h⟩
    subst h3
    simp
    omega
  | succ f ih =>
    intro s buf h1 h2 h3
    rw [fill.eq_def]
    simp only
    split
    · rename_i hlt
      rcases hr : s.read ((k - buf.length : Nat) : Int) with ⟨d, s'⟩
      obtain ⟨e1, e2, e3⟩ := stream_read _ _ _ _ hr
      cases d with
      | nil =>
        have h4 : s.data = [] := by
          rcases hs : s.data with _ | ⟨c, cs⟩
          · rfl
          · exact absurd rfl (e3 (by omega) (by rw [hs]; simp))
        have h5 : s'.data = [] := by rw [h4] at e1; simpa using e1.symm
        refine ⟨buf, s', false, rfl, ?_, ?_, fun _ => h5⟩
        · rw [h3, h4, h5]
        · rw [h3, h4]; simp; omega
      | cons c cs =>
        simp only
        refine ih s' (buf ++ c :: cs) ?_ ?_ ?_
        · simp only [List.length_append]; omega
        · simp only [List.length_append, List.length_cons]; omega
        · rw [h3, e1, List.append_assoc]
    · refine ⟨buf, s, true, rfl, h3, ?_, fun h => nomatch h⟩
      subst h3
      simp
      omega

/-! ## The invariant -/

/-- What is in the buffer and in the stream. -/
structure Inv (k : Nat) (all : Str) (length : Option Nat) (w : Wrapper) : Prop where
  len : w.length = length
  buf : w.buffer = (body all length).take k
  bpos : w.bpos = min w.pos w.buffer.length
  pos : w.pos ≤ (body all length).length
  data : w.input.data = all.drop (max w.pos w.buffer.length)
  live : w.live = false → max w.pos w.buffer.length = (body all length).length

theorem body_prefix (all : Str) (length : Option Nat) : body all length = all.take (body all length).length := by
  cases length <;> simp [body]

theorem body_length (all : Str) (length : Option Nat) :
    (body all length).length = match length with | some l => min l all.length | none => all.length := by
  cases length <;> simp [body]

theorem inv_new (k : Nat) (all : Str) (length : Option Nat) (plan : List Nat) :
    Inv k all length (new length k ⟨all, plan⟩) := by
  obtain ⟨k', hk⟩ : ∃ k', k' = bufferSize length k := ⟨_, rfl⟩
  obtain ⟨b, s, l, e, e1, e2, e3⟩ := fill_spec all k' k' ⟨all, plan⟩ [] (by simp) (by simp) rfl
  have hnew : new length k ⟨all, plan⟩ =
      { input := s, live := l, length := length, pos := 0, buffer := b, bpos := 0 } := by
    unfold new
    rw [← hk, e]
  have hbl := body_length all length
  have hb : b = all.take b.length := by rw [e1]; simp
  have hb' : b.length = min k (body all length).length := by
    rw [e2, hbl, hk]
    unfold bufferSize
    cases length with
    | none => rfl
    | some l => simp only; split <;> omega
  have hd : s.data = all.drop b.length := by rw [e1]; simp
  rw [hnew]
  refine ⟨rfl, ?_, by simp, by simp, by simpa using hd, ?_⟩
  · simp only
    rw [body_prefix all length, List.take_take, ← hb']
    exact hb
  · intro hl
    simp only at hl ⊢
    have h1 := e3 hl
    have h2 : all = b := by rw [e1, h1, List.append_nil]
    have h3 : b.length = all.length := by rw [← h2]
    have h4 : (body all length).length ≤ all.length := by
      rw [hbl]; cases length <;> simp; omega
    omega

theorem inv_buffer_length {k : Nat} {all : Str} {length : Option Nat} {w : Wrapper}
    (h : Inv k all length w) : w.buffer.length = min k (body all length).length := by
  rw [h.buf]; simp

theorem drop_body (all : Str) (length : Option Nat) (p : Nat) :
    (body all length).drop p = (all.drop p).take ((body all length).length - p) := by
  conv => lhs; rw [body_prefix all length]
  rw [List.drop_take]

/-- What a read gives. -/
structure ReadOK (k : Nat) (all : Str) (length : Option Nat) (w : Wrapper) (n : Nat) (d : Str)
    (w' : Wrapper) : Prop where
  inv : Inv k all length w'
  pos : w'.pos = w.pos + d.length
  pre : d <+: (body all length).drop w.pos
  len : d.length ≤ n
  ne : n ≠ 0 → w.pos < (body all length).length → d ≠ []

theorem readStream_ok {k : Nat} {all : Str} {length : Option Nat} {w : Wrapper}
    (h : Inv k all length w) (hp : w.buffer.length ≤ w.pos) (n : Nat) :
    ReadOK k all length w n (readStream w [] n).1 (readStream w [] n).2 := by
  unfold readStream
  have hm : max w.pos w.buffer.length = w.pos := by omega
  split
  · rename_i hc
    have hask : ∃ m : Nat, asked w.length w.pos n = (m : Int) ∧ m ≤ n ∧
        (∀ l, length = some l → w.pos + m ≤ l) ∧ (w.pos < (body all length).length → m ≠ 0) := by
      have hpos := h.pos
      rw [body_length] at hpos ⊢
      rw [h.len]
      unfold asked
      cases length with
      | none =>
        exact ⟨n, rfl, Nat.le_refl _, (fun _ h => nomatch h), fun _ => hc.1⟩
      | some l =>
        simp only at hpos ⊢
        split
        · refine ⟨l - w.pos, by omega, by omega, ?_, by omega⟩
          intro l' hl'
          cases hl'
          omega
        · refine ⟨n, rfl, Nat.le_refl _, ?_, fun _ => hc.1⟩
          intro l' hl'
          cases hl'
          omega
    obtain ⟨m, hm1, hm2, hm3, hm4⟩ := hask
    rw [hm1]
    rcases hr : w.input.read (m : Int) with ⟨d, s'⟩
    obtain ⟨e1, e2, e3⟩ := stream_read _ _ _ _ hr
    have hdata := h.data
    rw [hm] at hdata
    cases d with
    | nil =>
      simp only
      have hs : s'.data = w.input.data := by rw [e1]; rfl
      have hend : w.pos = (body all length).length := by
        rcases Nat.lt_or_ge w.pos (body all length).length with hlt | hge
        · exfalso
          refine e3 (hm4 hlt) ?_ rfl
          rw [hdata]
          intro h0
          have := congrArg List.length h0
          have hbl : (body all length).length ≤ all.length := by
            rw [body_length]; cases length <;> simp; omega
          simp at this
          omega
        · exact Nat.le_antisymm h.pos hge
      refine ⟨⟨h.len, h.buf, h.bpos, h.pos, ?_, ?_⟩, rfl, List.nil_prefix, by simp, ?_⟩
      · simp only; rw [hs, h.data]
      · intro _; simp only; omega
      · intro _ hlt; omega
    | cons c cs =>
      simp only [List.nil_append]
      have hlen : w.pos + (c :: cs).length ≤ (body all length).length := by
        have h1 : (c :: cs).length + s'.data.length = all.length - w.pos := by
          have := congrArg List.length e1
          rw [hdata] at this
          simp at this ⊢
          omega
        rw [body_length]
        have h2 := hm3
        cases length with
        | none => simp only; have := h.pos; simp [body] at this; simp at h1 ⊢; omega
        | some l =>
          have := h2 l rfl
          have := h.pos
          simp [body] at this
          simp only
          simp at h1 e2 ⊢
          omega
      refine ⟨⟨h.len, h.buf, ?_, hlen, ?_, ?_⟩, rfl, ?_, by omega, fun _ _ => by simp⟩
      · have := h.bpos
        simp only
        omega
      · simp only
        have h2 : max (w.pos + (c :: cs).length) w.buffer.length = w.pos + (c :: cs).length := by omega
        rw [h2, ← List.drop_drop, ← hdata, e1]
        simp
      · intro hl
        have := hc.2
        simp only at hl
        rw [hl] at this
        cases this
      · rw [drop_body, ← hdata, e1]
        exact List.prefix_take_iff.2 ⟨List.prefix_append _ _, by omega⟩
  · rename_i hc
    refine ⟨h, by simp, List.nil_prefix, by simp, ?_⟩
    intro h0 hlt
    exfalso
    apply hc
    refine ⟨h0, ?_⟩
    cases hl : w.live
    · have := h.live hl
      omega
    · rfl

theorem readStream_append (w : Wrapper) (d : Str) (n : Nat) :
    readStream w d n = (d ++ (readStream w [] n).1, (readStream w [] n).2) := by
  unfold readStream
  split
  · split <;> simp
  · simp

theorem read_ok {k : Nat} {all : Str} {length : Option Nat} {w : Wrapper}
    (h : Inv k all length w) (n : Nat) : ReadOK k all length w n (read w n).1 (read w n).2 := by
  unfold Verif.InputWrapper.read
  split
  · rename_i hc
    simp only
    obtain ⟨d, hd⟩ : ∃ d, d = (w.buffer.drop w.bpos).take n := ⟨_, rfl⟩
    rw [← hd, readStream_append]
    have hbp : w.bpos = w.pos := by have := h.bpos; omega
    have hbl := inv_buffer_length h
    have hdl : d.length = min n (w.buffer.length - w.pos) := by rw [hd, hbp]; simp
    have hpre : d <+: (body all length).drop w.pos := by
      rw [hd, hbp, h.buf, List.drop_take, List.take_take]
      exact List.take_prefix _ _
    have hinv : Inv k all length { w with pos := w.pos + d.length, bpos := w.bpos + d.length } := by
      refine ⟨h.len, h.buf, ?_, ?_, ?_, ?_⟩
      · simp only; omega
      · simp only; omega
      · have h1 := h.data
        have h2 : max (w.pos + d.length) w.buffer.length = max w.pos w.buffer.length := by omega
        simp only
        rw [h2]
        exact h1
      · intro hl
        have := h.live hl
        simp only
        omega
    rcases Nat.lt_or_ge d.length n with hlt | hge
    · have hat : w.pos + d.length = w.buffer.length := by omega
      have hr := readStream_ok hinv (by simp only; omega) (n - d.length)
      refine ⟨hr.inv, ?_, ?_, ?_, ?_⟩
      · rw [hr.pos]; simp; omega
      · obtain ⟨t, ht⟩ := hr.pre
        obtain ⟨u, hu⟩ := hpre
        refine ⟨t, ?_⟩
        simp only at ht
        rw [List.append_assoc, ht, ← List.drop_drop, ← hu]
        simp
      · have := hr.len; simp; omega
      · intro _ _ h0
        have : d = [] := (List.append_eq_nil_iff.1 h0).1
        rw [this] at hdl
        simp at hdl
        omega
    · have h0 : n - d.length = 0 := by omega
      rw [h0]
      have hz : ∀ v, readStream v [] 0 = ([], v) := by intro v; simp [readStream]
      rw [hz]
      refine ⟨hinv, by simp, by simpa using hpre, by simp; omega, ?_⟩
      intro _ _ h1
      simp at h1
      rw [h1] at hdl
      simp at hdl
      omega
  · rename_i hc
    rcases Nat.eq_zero_or_pos n with h0 | h0
    · subst h0
      have hz : ∀ v, readStream v [] 0 = ([], v) := by intro v; simp [readStream]
      rw [hz]
      exact ⟨h, by simp, List.nil_prefix, by simp, fun h => absurd rfl h⟩
    · exact readStream_ok h (by omega) n

theorem used_inv {size k : Nat} {all : Str} {length : Option Nat} {w : Wrapper}
    (h : Used size k all length w) : Inv k all length w := by
  induction h with
  | fresh plan => exact inv_new k all length plan
  | afterRead n _ ih => exact (read_ok ih n).inv
  | @afterSeek w w' offset whence _ hs h1 h2 ih =>
    unfold seek at hs
    split at hs
    · cases hs
    · rename_i hp
      split at hs
      · cases hs
      · rename_i t ht
        split at hs
        · cases hs
        · split at hs
          · cases hs; exact ih
          · split at hs
            · cases hs
              rename_i hle
              have hbl := inv_buffer_length ih
              refine ⟨ih.len, ih.buf, ?_, h2, ?_, ?_⟩
              · simp only; omega
              · have := ih.data
                simp only
                have h3 : max t.toNat w.buffer.length = max w.pos w.buffer.length := by omega
                rw [h3]
                exact this
              · intro hl
                have := ih.live hl
                simp only
                omega
            · rename_i hgt
              exfalso
              cases hs
              have hbl := inv_buffer_length ih
              simp only [tell] at h1 h2
              omega

/-! ## Properties -/

/-- C349: whatever was read before, a read gives the next bytes of the body, at most as many as
asked for, and none only at the end of the body. -/
theorem input_read {size k : Nat} {all : Str} {length : Option Nat} {w : Wrapper}
    (h : Used size k all length w) (n : Nat) :
    (read w n).1 <+: (body all length).drop (tell w) ∧ (read w n).1.length ≤ n ∧
    ((read w n).1 = [] ↔ n = 0 ∨ tell w = (body all length).length) ∧
    tell (read w n).2 = tell w + (read w n).1.length := by
  have hr := read_ok (used_inv h) n
  refine ⟨hr.pre, hr.len, ⟨?_, ?_⟩, hr.pos⟩
  · intro h0
    rcases Nat.eq_zero_or_pos n with h1 | h1
    · exact Or.inl h1
    · refine Or.inr ?_
      have := (used_inv h).pos
      rcases Nat.lt_or_ge w.pos (body all length).length with h2 | h2
      · exact absurd h0 (hr.ne (by omega) h2)
      · exact Nat.le_antisymm this h2
  · rintro (h0 | h0)
    · have := hr.len
      exact List.length_eq_zero_iff.1 (by omega)
    · have := hr.pre
      rw [show w.pos = (body all length).length from h0] at this
      simpa using this

theorem remaining_le {k : Nat} {all : Str} {length : Option Nat} {w : Wrapper}
    (h : Inv k all length w) :
    ((body all length).drop w.pos).length ≤ w.buffer.length + w.input.data.length := by
  have h1 := h.data
  have hbl : (body all length).length ≤ all.length := by
    rw [body_length]; cases length <;> simp; omega
  rw [h1]
  simp
  omega

theorem readAllLoop_ok (size : Nat) (hs : size ≠ 0) {k : Nat} {all : Str} {length : Option Nat} : ∀ (f : Nat) (w : Wrapper),
    Inv k all length w → ((body all length).drop w.pos).length < f →
    (readAllLoop size f w).1 = (body all length).drop w.pos ∧ Inv k all length (readAllLoop size f w).2 ∧
    (readAllLoop size f w).2.pos = (body all length).length := by
  intro f
  induction f with
  | zero => intro w _ h; omega
  | succ f ih =>
    intro w hw hf
    have hr := read_ok hw size
    rw [readAllLoop.eq_def]
    simp only
    rcases he : read w size with ⟨d, w'⟩
    rw [he] at hr
    cases d with
    | nil =>
      simp only
      have hend : w.pos = (body all length).length := by
        rcases Nat.lt_or_ge w.pos (body all length).length with h2 | h2
        · exact absurd rfl (hr.ne hs h2)
        · exact Nat.le_antisymm hw.pos h2
      have := hr.pos
      simp only [List.length_nil] at this
      refine ⟨?_, hr.inv, by omega⟩
      rw [hend]; simp
    | cons c cs =>
      simp only
      obtain ⟨t, ht⟩ := hr.pre
      have hp := hr.pos
      simp only at hp ht
      have hlen := congrArg List.length ht
      simp only [List.length_append, List.length_drop, List.length_cons] at hlen hf hp
      obtain ⟨e1, e2, e3⟩ := ih w' hr.inv (by simp only [List.length_drop]; omega)
      refine ⟨?_, e2, e3⟩
      rw [e1, hp, ← List.drop_drop, ← ht]
      simp

/-- C350: reading all gives the rest of the body, however short the reads of the stream are, and
leaves the wrapper at its end. -/
theorem input_read_all {size k : Nat} (hs : 0 < size) {all : Str} {length : Option Nat} {w : Wrapper}
    (h : Used size k all length w) :
    (readAll size w).1 = (body all length).drop (tell w) ∧
    tell (readAll size w).2 = (body all length).length := by
  have hw := used_inv h
  have h1 := remaining_le hw
  obtain ⟨e1, _, e3⟩ := readAllLoop_ok size (by omega) _ w hw (Nat.lt_succ_of_le h1)
  exact ⟨e1, e3⟩

/-- C351: no more than the body is taken from the stream: what follows it (another request) is still
there. -/
theorem input_no_more {size k : Nat} {bytes more : Str} {w : Wrapper}
    (h : Used size k (bytes ++ more) (some bytes.length) w) : more <:+ w.input.data := by
  have hw := used_inv h
  have hb : (body (bytes ++ more) (some bytes.length)).length = bytes.length := by simp [body]
  have h1 := inv_buffer_length hw
  have h2 := hw.pos
  rw [hw.data, List.drop_append, show max w.pos w.buffer.length - bytes.length = 0 by omega]
  exact List.suffix_append _ _

/-- C352: while no more than `k` bytes were read, the wrapper can be put to any place in the first `k`
bytes of the body, and everything from there is read again; after that it cannot. -/
theorem input_rewind {size k : Nat} (hs : 0 < size) {all : Str} {length : Option Nat} {w : Wrapper}
    (h : Used size k all length w) (p : Nat) (hp : p ≤ k) (hb : p ≤ (body all length).length) :
    if tell w ≤ k then
      ∃ w', seek size w p .set = some w' ∧ tell w' = p ∧
        (readAll size w').1 = (body all length).drop p
    else seek size w p .set = none := by
  have hw := used_inv h
  have hbl := inv_buffer_length hw
  have hpos := hw.pos
  unfold tell
  by_cases hk : w.pos ≤ k
  · rw [if_pos hk]
    have hex : ∃ w', seek size w p .set = some w' ∧ tell w' = p := by
      unfold seek
      rw [if_neg (by omega)]
      simp only [target, Int.toNat_natCast]
      rw [if_neg (by omega)]
      split
      · rename_i he; exact ⟨w, rfl, he.symm⟩
      · rw [if_pos (by omega)]
        exact ⟨_, rfl, rfl⟩
    obtain ⟨w', e1, e2⟩ := hex
    refine ⟨w', e1, e2, ?_⟩
    have hu : Used size k all length w' :=
      Used.afterSeek p .set h e1 (by rw [e2]; omega) (by rw [e2]; omega)
    have := (input_read_all hs hu).1
    rw [e2] at this
    exact this
  · rw [if_neg hk]
    unfold seek
    rw [if_pos (by omega)]

/-- C352: places can be given from the position and from the end as well; from the end only if there
is a content length. -/
theorem input_whence {size k : Nat} {all : Str} {length : Option Nat} {w : Wrapper}
    (h : Used size k all length w) (p : Int) :
    seek size w (p - tell w) .cur = seek size w p .set ∧
    match length with
    | some l => seek size w (p - l) .fromEnd = seek size w p .set
    | none => seek size w p .fromEnd = none := by
  have hl := (used_inv h).len
  constructor
  · unfold seek
    have h1 : (w.pos : Int) + (p - (tell w : Int)) = p := by unfold tell; omega
    simp only [target, h1]
  · cases length with
    | none =>
      unfold seek
      simp only [target, hl]
      split <;> rfl
    | some l =>
      unfold seek
      have h1 : (l : Int) + (p - (l : Int)) = p := by omega
      simp only [target, hl, h1]

theorem readLineLoop_ok {k : Nat} {all : Str} {length : Option Nat} (limit : Option Nat) : ∀ (f : Nat) (line : Str) (w : Wrapper),
    Inv k all length w → ((body all length).drop w.pos).length < f →
    (readLineLoop limit f line w).1 = line ++
      (match limit with
        | none => firstLine ((body all length).drop w.pos)
        | some l => (firstLine ((body all length).drop w.pos)).take (l - line.length)) ∧
    Inv k all length (readLineLoop limit f line w).2 ∧
    (readLineLoop limit f line w).2.pos + line.length = w.pos + (readLineLoop limit f line w).1.length := by
  intro f
  induction f with
  | zero => intro _ w _ h; omega
  | succ f ih =>
    intro line w hw hf
    have hr := read_ok hw 1
    rw [readLineLoop.eq_def]
    simp only
    by_cases hlim : below limit line.length = true
    · rw [if_pos hlim]
      rcases he : read w 1 with ⟨d, w'⟩
      rw [he] at hr
      have hp := hr.pos
      simp only at hp
      cases d with
      | nil =>
        simp only
        have hend : w.pos = (body all length).length := by
          rcases Nat.lt_or_ge w.pos (body all length).length with h2 | h2
          · exact absurd rfl (hr.ne (by omega) h2)
          · exact Nat.le_antisymm hw.pos h2
        refine ⟨?_, hr.inv, by rw [hp]; simp⟩
        rw [hend]
        cases limit <;> simp [firstLine]
      | cons c cs =>
        have hcs : cs = [] := by
          have := hr.len
          simp at this
          exact this
        subst hcs
        obtain ⟨t, ht⟩ := hr.pre
        simp only [List.singleton_append] at ht
        have htd : (body all length).drop w'.pos = t := by
          rw [hp, ← List.drop_drop, ← ht]; simp
        have hlen := congrArg List.length ht
        simp only
        by_cases hc : c = '\n'
        · rw [if_pos (by rw [hc])]
          refine ⟨?_, hr.inv, ?_⟩
          · rw [← ht]
            cases limit with
            | none => simp [firstLine, hc]
            | some l =>
              simp only [below, decide_eq_true_eq] at hlim
              simp only [firstLine, hc, if_true]
              rw [List.take_of_length_le (by simp; omega)]
          · simp only [List.length_append, hp]; omega
        · rw [if_neg (by simpa using hc)]
          simp only [List.length_cons] at hlen
          obtain ⟨e1, e2, e3⟩ := ih (line ++ [c]) w' hr.inv (by rw [htd]; omega)
          refine ⟨?_, e2, ?_⟩
          · rw [e1, htd, ← ht]
            cases limit with
            | none => simp [firstLine, hc]
            | some l =>
              simp only [below, decide_eq_true_eq] at hlim
              simp only [firstLine, hc, if_false]
              have h5 : l - line.length = (l - (line ++ [c]).length) + 1 := by
                simp only [List.length_append, List.length_singleton]; omega
              rw [h5, List.take_succ_cons]
              simp
          · simp only [List.length_append, List.length_singleton, hp] at e3 ⊢
            omega
    · rw [if_neg hlim]
      refine ⟨?_, hw, by simp⟩
      cases limit with
      | none => exact absurd rfl hlim
      | some l =>
        simp only [below, decide_eq_true_eq] at hlim
        simp only
        rw [show l - line.length = 0 by omega]
        simp

/-- C353: `readline` gives the rest of the line with its line feed, cut at the limit, and leaves the
wrapper behind it. -/
theorem input_line {size k : Nat} {all : Str} {length : Option Nat} {w : Wrapper}
    (h : Used size k all length w) (limit : Option Nat) :
    (readLine limit w).1 =
      (match limit with
        | none => firstLine ((body all length).drop (tell w))
        | some l => (firstLine ((body all length).drop (tell w))).take l) ∧
    tell (readLine limit w).2 = tell w + (readLine limit w).1.length := by
  have hw := used_inv h
  have h1 := remaining_le hw
  obtain ⟨e1, _, e3⟩ := readLineLoop_ok limit _ [] w hw (Nat.lt_succ_of_le h1)
  refine ⟨?_, by simpa [readLine, tell] using e3⟩
  cases limit <;> simpa [readLine, tell] using e1

/-- C354, refuted for all bodies: without a hint, or with one that is not less than what is left,
`readlines` never ends. -/
theorem input_lines_refuted {size k : Nat} {all : Str} {length : Option Nat} {w : Wrapper}
    (h : Used size k all length w) (fuel : Nat) :
    readLines none fuel 0 [] w = none ∧
    ∀ hint, ((body all length).drop (tell w)).length ≤ hint → readLines (some hint) fuel 0 [] w = none := by
  have hw := used_inv h
  constructor
  · have : ∀ f t ls v, readLines none f t ls v = none := by
      intro f
      induction f with
      | zero => intros; rfl
      | succ f ih =>
        intro t ls v
        rw [readLines.eq_def]
        simp only
        split
        · exact ih _ _ _
        · simpa [exceeds] using ih _ _ _
    exact this ..
  · intro hint hh
    have : ∀ f t ls v, Inv k all length v → t + ((body all length).length - v.pos) ≤ hint →
        readLines (some hint) f t ls v = none := by
      intro f
      induction f with
      | zero => intros; rfl
      | succ f ih =>
        intro t ls v hv ht
        obtain ⟨e1, e2, e3⟩ := readLineLoop_ok none _ [] v hv (Nat.lt_succ_of_le (remaining_le hv))
        rw [readLines.eq_def]
        simp only
        have hv' : ∀ r, readLine none v = r → Inv k all length r.2 ∧ r.2.pos = v.pos + r.1.length := by
          intro r hr
          subst hr
          exact ⟨e2, by simpa [readLine] using e3⟩
        split
        · rename_i w' he
          obtain ⟨i1, i2⟩ := hv' _ he
          exact ih _ _ _ i1 (by simp at i2; rw [i2]; exact ht)
        · rename_i c cs w' he
          obtain ⟨i1, i2⟩ := hv' _ he
          have := i1.pos
          simp only at i2 this
          rw [if_neg (by simp only [exceeds, decide_eq_true_eq]; omega)]
          exact ih _ _ _ i1 (by omega)
    exact this fuel 0 [] w hw (by simpa [tell] using hh)

/-- C355, positive part: the blocks put together are the rest of the body. -/
theorem input_blocks {size k : Nat} (hs : 0 < size) {all : Str} {length : Option Nat} {w : Wrapper}
    (h : Used size k all length w) (maxSize : Nat) :
    (iterBlocks size maxSize w).flatten = (body all length).drop (tell w) ∧
    ∀ b ∈ iterBlocks size maxSize w, b ≠ [] ∧ b.length ≤ size := by
  have key : ∀ f (w : Wrapper), (blocksLoop size f w).flatten = (readAllLoop size f w).1 := by
    intro f
    induction f with
    | zero => intro w; rfl
    | succ f ih =>
      intro w
      rw [blocksLoop.eq_def, readAllLoop.eq_def]
      simp only
      split <;> simp_all
  have key2 : ∀ f (w : Wrapper), Inv k all length w → ∀ b ∈ blocksLoop size f w, b ≠ [] ∧ b.length ≤ size := by
    intro f
    induction f with
    | zero => intro w _ b hb; simp [blocksLoop] at hb
    | succ f ih =>
      intro w hw b hb
      have hr := read_ok hw size
      rw [blocksLoop.eq_def] at hb
      simp only at hb
      split at hb
      · cases hb
      · rename_i c cs w' he
        rw [he] at hr
        rcases List.mem_cons.1 hb with h1 | h1
        · subst h1
          exact ⟨by simp, hr.len⟩
        · exact ih w' hr.inv b h1
  refine ⟨?_, key2 _ w (used_inv h)⟩
  unfold iterBlocks
  rw [key]
  exact (input_read_all hs h).1

/-- C355, refuted: blocks are longer than the greatest size asked for. -/
theorem input_blocks_refuted (size maxSize : Nat) (h : maxSize < size) :
    ∃ all w, Used size 0 all none w ∧ ∃ b ∈ iterBlocks size maxSize w, maxSize < b.length := by
  refine ⟨List.replicate (maxSize + 1) 'x', _, Used.fresh [], List.replicate (maxSize + 1) 'x', ?_, by simp⟩
  have hs : size ≠ 0 := by omega
  have hn : new none 0 ⟨List.replicate (maxSize + 1) 'x', []⟩ =
      ⟨⟨List.replicate (maxSize + 1) 'x', []⟩, true, none, 0, [], 0⟩ := rfl
  rw [hn]
  unfold iterBlocks
  rw [blocksLoop.eq_def]
  have hread : read ⟨⟨List.replicate (maxSize + 1) 'x', []⟩, true, none, 0, [], 0⟩ size =
      (List.replicate (maxSize + 1) 'x', ⟨⟨[], []⟩, true, none, maxSize + 1, [], 0⟩) := by
    have ht : (List.replicate (maxSize + 1) 'x').take size = List.replicate (maxSize + 1) 'x' :=
      List.take_of_length_le (by simp; omega)
    have hd : (List.replicate (maxSize + 1) 'x').drop size = [] := List.drop_of_length_le (by simp; omega)
    unfold Verif.InputWrapper.read readStream
    simp only [List.length_nil, Nat.not_lt_zero, and_false, if_false]
    rw [if_pos ⟨hs, by trivial⟩]
    have h0 : ¬ (size : Int) < 0 := by omega
    simp only [asked, Stream.read, h0, if_false, Int.toNat_natCast, ht, hd]
    simp [List.replicate_succ]
  simp only [hread]
  simp [List.replicate_succ]

/-- C356, refuted: after seeking forward beyond the buffer, the bytes that are read are not those of
that place, when the stream gives fewer bytes than asked for. -/
theorem input_seek_refuted :
    ∃ (size k : Nat) (all : Str) (w w' : Wrapper), Used size k all (some all.length) w ∧
      seek size w 3 .set = some w' ∧ tell w' = 3 ∧
      (readAll size w').1 ≠ all.drop 3 := by
  refine ⟨8192, 1, "abcd".toList, _, _, Used.fresh [0, 0], rfl, rfl, ?_⟩
  decide +kernel

/-- C357, refuted: after seeking beyond the end of the body, a read takes what follows the body from
the stream, and more than was asked for. -/
theorem input_past_end_refuted :
    ∃ (size k : Nat) (bytes more : Str) (w w' : Wrapper),
      Used size k (bytes ++ more) (some bytes.length) w ∧ more ≠ [] ∧
      seek size w 6 .set = some w' ∧ more <:+ (read w' 1).1 ∧ 1 < (read w' 1).1.length := by
  refine ⟨8192, 1, "abcd".toList, "XYZ".toList, _, _, Used.fresh [0, 1], by decide, rfl, ?_, ?_⟩
  · exact ⟨"d".toList, by decide +kernel⟩
  · decide +kernel

/-- A concrete case: a body of three lines that arrives in small pieces, followed by another request. -/
theorem input_sample :
    let all := "ab\ncd\nefGET /".toList
    let w := new (some 8) 5 ⟨all, [1, 0, 2, 1, 0]⟩
    Used 8192 5 all (some 8) w ∧ (readLine none w).1 = "ab\n".toList ∧
    (readAll 8192 w).1 = "ab\ncd\nef".toList ∧ (read w 4).1 = "ab\nc".toList ∧
    (readAll 8192 w).2.input.data = "GET /".toList := by
  refine ⟨Used.fresh _, ?_⟩
  decide +kernel

end Verif.Props.InputWrapper
