import Verif.Model.HttpMessage
import Verif.Lemmas.HttpValues
import Verif.Spec.HttpMessage

/-! # Reading responses piece by piece -/

namespace Verif.Http.Msg

open Verif Verif.Spec.HttpMessage

theorem cutLine_spec : ∀ {s line rest : Str}, cutLine s = some (line, rest) → s = line ++ rest ∧ crlfStr <:+ line
  | [], _, _, h => by cases h
  | c :: t, line, rest, h => by
    unfold cutLine at h
    split at h
    · cases h
    · next t' heq => cases heq; cases h; exact ⟨rfl, List.suffix_refl _⟩
    · next c' t' hne heq =>
      cases heq
      obtain ⟨p, hp, he⟩ := Option.map_eq_some_iff.mp h
      obtain ⟨l, q⟩ := p
      cases he
      obtain ⟨h1, h2⟩ := cutLine_spec hp
      exact ⟨by rw [h1]; rfl, List.IsSuffix.trans h2 (List.suffix_cons _ _)⟩

theorem cutLine_append {s line rest : Str} (h : cutLine s = some (line, rest)) (t : Str) :
    cutLine (s ++ t) = some (line, rest ++ t) := by
  induction s generalizing line with
  | nil => cases h
  | cons c s ih =>
    unfold cutLine at h
    split at h
    · next heq => cases heq
    · next t' heq =>
      cases heq
      cases h
      rfl
    · next c' t' hne heq =>
      cases heq
      obtain ⟨p, hp, he⟩ := Option.map_eq_some_iff.mp h
      obtain ⟨l, q⟩ := p
      cases he
      have hi := ih hp
      rw [List.cons_append]
      unfold cutLine
      split
      · next heq => cases heq
      · next u heq =>
        injection heq with h1 h2
        cases s with
        | nil => cases hp
        | cons d s =>
          rw [List.cons_append] at h2
          injection h2 with h3 h4
          exact absurd h1 (by intro e; exact hne s e (by rw [h3]))
      · next c' t' _ heq =>
        cases heq
        rw [hi]
        rfl

/-- A proper beginning of a line has no end of line. -/
theorem cutLine_prefix {p q : Str} (h : cutLine (p ++ q) = some (p ++ q, [])) (hq : q ≠ []) : cutLine p = none := by
  cases hp : cutLine p with
  | none => rfl
  | some x =>
    obtain ⟨l, r⟩ := x
    have h1 := cutLine_append hp q
    rw [h] at h1
    simp only [Option.some.injEq, Prod.mk.injEq] at h1
    have h2 := (List.append_eq_nil_iff.mp h1.2.symm).2
    exact absurd h2 hq

/-- The size of a buffer is right. -/
def Buf.OK (b : Buf) : Prop := b.size = b.pieces.flatten.length

theorem takePieces_spec : ∀ (ps : List Str) (n : Nat), 0 < n → n ≤ ps.flatten.length →
    ∃ qs, takePieces n ps = some (ps.flatten.take n, qs) ∧ qs.flatten = ps.flatten.drop n
  | [], n, h0, h => by simp at h; omega
  | d :: ps, n, h0, h => by
    rw [List.flatten_cons, List.length_append] at h
    unfold takePieces
    by_cases h1 : d.length < n
    · obtain ⟨qs, e1, e2⟩ := takePieces_spec ps (n - d.length) (by omega) (by omega)
      refine ⟨qs, ?_, ?_⟩
      · rw [if_pos h1, e1, List.flatten_cons, List.take_append, List.take_of_length_le (i := n) (l := d) (by omega)]
        rfl
      · rw [e2, List.flatten_cons, List.drop_append, List.drop_eq_nil_of_le (by omega : d.length ≤ n), List.nil_append]
    · rw [if_neg h1]
      by_cases h2 : d.length = n
      · refine ⟨ps, ?_, ?_⟩
        · rw [if_pos h2, List.flatten_cons, List.take_append, List.take_of_length_le (by omega), h2, Nat.sub_self, List.take_zero,
            List.append_nil]
        · rw [List.flatten_cons, List.drop_append, List.drop_eq_nil_of_le (by omega : d.length ≤ n), h2, Nat.sub_self]
          rfl
      · refine ⟨d.drop n :: ps, ?_, ?_⟩
        · rw [if_neg h2, List.flatten_cons, List.take_append, show n - d.length = 0 from by omega, List.take_zero, List.append_nil]
        · rw [List.flatten_cons, List.flatten_cons, List.drop_append, show n - d.length = 0 from by omega]
          rfl

/-- One line or one block is read. -/
def Step (method : Str) (r : Resp) (u : Str) (r' : Resp) (evs : List Ev) : Prop :=
  (needs r = .line ∧ cutLine u = some (u, []) ∧ recvLine method r u = .ok (r', evs)) ∨
  (∃ n : Nat, needs r = .bytes n ∧ 0 < n ∧ u.length = n ∧ recvBytes r u = (r', evs))

/-- Lines and blocks are read. -/
inductive Steps (method : Str) : Resp → Str → Resp → List Ev → Prop where
  | refl (r : Resp) : Steps method r [] r []
  | step {r r1 r2 : Resp} {u s : Str} {e1 e2 : List Ev} : Step method r u r1 e1 → Steps method r1 s r2 e2 →
      Steps method r (u ++ s) r2 (e1 ++ e2)

theorem Steps.one {m : Str} {r r' : Resp} {u : Str} {e : List Ev} (h : Step m r u r' e) : Steps m r u r' e := by
  have := Steps.step h (.refl r')
  rwa [List.append_nil, List.append_nil] at this

theorem Steps.trans {m : Str} {r r1 r2 : Resp} {s t : Str} {e1 e2 : List Ev} (h1 : Steps m r s r1 e1) (h2 : Steps m r1 t r2 e2) :
    Steps m r (s ++ t) r2 (e1 ++ e2) := by
  induction h1 with
  | refl => exact h2
  | step h _ ih =>
    rw [List.append_assoc, List.append_assoc]
    exact .step h (ih h2)

theorem Step.pos {m : Str} {r r' : Resp} {u : Str} {e : List Ev} (h : Step m r u r' e) : u ≠ [] := by
  rintro rfl
  rcases h with ⟨_, h, _⟩ | ⟨n, _, h1, h2, _⟩
  · cases h
  · simp at h2; omega

/-- A round reads a line or a block that is there. -/
theorem round_step {m : Str} {r r' : Resp} {u : Str} {e : List Ev} (h : Step m r u r' e) {b : Buf} (hb : b.OK) {rest : Str}
    (hd : b.pieces.flatten = u ++ rest) (last : Option Str) :
    ∃ b' last', round m r b last = .ok (.next r' b' last' e) ∧ b'.OK ∧ b'.pieces.flatten = rest := by
  rcases h with ⟨h1, h2, h3⟩ | ⟨n, h1, h2, h3, h4⟩
  · refine ⟨if rest ≠ [] then ⟨[rest], rest.length⟩ else ⟨[], 0⟩, last, ?_, ?_, ?_⟩
    · unfold round
      rw [h1]
      dsimp only
      have := cutLine_append h2 rest
      rw [List.nil_append] at this
      rw [hd, this]
      dsimp only
      rw [h3]
    · split
      · unfold Buf.OK
        simp
      · rfl
    · split
      · simp
      · next hr => simp at hr; rw [hr]; rfl
  · obtain ⟨qs, e1, e2⟩ := takePieces_spec b.pieces n h2 (by rw [hd, List.length_append]; omega)
    have ht : b.pieces.flatten.take n = u := by rw [hd, ← h3, List.take_left']; rfl
    have hr : b.pieces.flatten.drop n = rest := by rw [hd, ← h3, List.drop_left']; rfl
    refine ⟨⟨qs, b.size - u.length⟩, some u, ?_, ?_, e2.trans hr⟩
    · unfold round
      rw [h1]
      dsimp only
      unfold Buf.OK at hb
      rw [if_neg (by omega), if_neg (by rw [hb, hd, List.length_append]; omega), if_neg (by omega)]
      rw [Int.toNat_natCast, e1, ht]
      dsimp only
      rw [h4]
    · unfold Buf.OK at hb ⊢
      dsimp only
      rw [e2, hr, hb, hd, List.length_append]
      omega

/-- A round reads nothing of a line or a block that is not there yet. -/
theorem round_blocked {m : Str} {r r' : Resp} {u p q : Str} {e : List Ev} (h : Step m r u r' e) {b : Buf} (hb : b.OK)
    (hd : b.pieces.flatten = p) (hu : u = p ++ q) (hq : q ≠ []) (last : Option Str) : round m r b last = .ok .blocked := by
  subst hu
  rcases h with ⟨h1, h2, h3⟩ | ⟨n, h1, h2, h3, h4⟩
  · unfold round
    rw [h1]
    dsimp only
    rw [hd, cutLine_prefix h2 hq]
  · unfold round
    rw [h1]
    dsimp only
    unfold Buf.OK at hb
    have : 0 < q.length := List.length_pos_iff.mpr hq
    rw [List.length_append] at h3
    rw [if_neg (by omega), if_pos (by rw [hb, hd]; omega)]

/-- The loop reads what is there completely. -/
theorem loop_steps {m : Str} {r r' : Resp} {s : Str} {evs : List Ev} (h : Steps m r s r' evs) (hn : needs r' = .nothing) :
    ∀ {b : Buf} {rest : Str} (last : Option Str) (fuel : Nat), b.OK → b.pieces.flatten = s ++ rest → s.length < fuel →
      ∃ b', loop m fuel r b last = .ok ⟨r', b', evs, true⟩ ∧ b'.OK ∧ b'.pieces.flatten = rest := by
  induction h with
  | refl r =>
    intro b rest last fuel hb hd hf
    cases fuel with
    | zero => omega
    | succ fuel =>
      refine ⟨b, ?_, hb, hd⟩
      unfold loop round
      rw [hn]
  | step h1 h2 ih =>
    rename_i r r1 r2 u s e1 e2
    intro b rest last fuel hb hd hf
    cases fuel with
    | zero => omega
    | succ fuel =>
      rw [List.append_assoc] at hd
      obtain ⟨b1, last1, a1, a2, a3⟩ := round_step h1 hb hd last
      have hp : 0 < u.length := List.length_pos_iff.mpr h1.pos
      rw [List.length_append] at hf
      obtain ⟨b', c1, c2, c3⟩ := ih hn (b := b1) (rest := rest) last1 fuel a2 a3 (by omega)
      refine ⟨b', ?_, c2, c3⟩
      unfold loop
      rw [a1]
      dsimp only
      rw [c1]
      rfl

/-- The loop reads the lines and blocks that are there, and keeps the rest. -/
theorem loop_partial {m : Str} {r r' : Resp} {s : Str} {evs : List Ev} (h : Steps m r s r' evs) :
    ∀ {b : Buf} {p q : Str} (last : Option Str) (fuel : Nat), b.OK → b.pieces.flatten = p → s = p ++ q → q ≠ [] → p.length < fuel →
      ∃ r1 b' e1 e2 c, loop m fuel r b last = .ok ⟨r1, b', e1, false⟩ ∧ b'.OK ∧ c = b'.pieces.flatten ++ q ∧ evs = e1 ++ e2 ∧
        Steps m r1 c r' e2 := by
  induction h with
  | refl r =>
    intro b p q last fuel hb hd hs hq hf
    exact absurd (List.append_eq_nil_iff.mp hs.symm).2 hq
  | step h1 h2 ih =>
    rename_i r r1 r2 u s e1 e2
    intro b p q last fuel hb hd hs hq hf
    cases fuel with
    | zero => omega
    | succ fuel =>
      have hp : 0 < u.length := List.length_pos_iff.mpr h1.pos
      rcases List.append_eq_append_iff.mp hs with ⟨a, ha1, ha2⟩ | ⟨a, ha1, ha2⟩
      · -- the unit is there
        obtain ⟨b1, last1, c1, c2, c3⟩ := round_step h1 hb (hd.trans ha1) last
        obtain ⟨r3, b', f1, f2, c, d1, d2, d3, d4, d5⟩ := ih (b := b1) (p := a) (q := q) last1 fuel c2 c3 ha2 hq
          (by rw [ha1, List.length_append] at hf; omega)
        refine ⟨r3, b', e1 ++ f1, f2, c, ?_, d2, d3, by rw [d4, List.append_assoc], d5⟩
        unfold loop
        rw [c1]
        dsimp only
        rw [d1]
        rfl
      · by_cases ha : a = []
        · subst ha
          rw [List.append_nil] at ha1
          rw [List.nil_append] at ha2
          obtain ⟨b1, last1, c1, c2, c3⟩ := round_step (rest := []) h1 hb (by rw [hd, List.append_nil, ha1]) last
          obtain ⟨r3, b', f1, f2, c, d1, d2, d3, d4, d5⟩ := ih (b := b1) (p := []) (q := q) last1 fuel c2 c3 ha2.symm hq
            (by rw [← ha1] at hf; simp; omega)
          refine ⟨r3, b', e1 ++ f1, f2, c, ?_, d2, d3, by rw [d4, List.append_assoc], d5⟩
          unfold loop
          rw [c1]
          dsimp only
          rw [d1]
          rfl
        · refine ⟨r, b, [], e1 ++ e2, u ++ s, ?_, hb, by rw [hd, ← hs], rfl, .step h1 h2⟩
          unfold loop
          rw [round_blocked h1 hb hd ha1 ha last]

/-- However it is cut in pieces, what is sent is read. -/
theorem receiveAll_steps {m : Str} {r' : Resp} (hn : needs r' = .nothing) :
    ∀ (ds : List Str) (r : Resp) (b : Buf) (c q rest : Str) (evs : List Ev), Steps m r c r' evs → b.OK → c = b.pieces.flatten ++ q → q ≠ [] →
      b.pieces.flatten ++ ds.flatten = c ++ rest →
      ∃ x ds', receiveAll m r b ds = .ok (x, ds') ∧ x.complete = true ∧ x.r = r' ∧ x.evs = evs ∧ x.b.OK ∧
        x.b.pieces.flatten ++ ds'.flatten = rest
  | [], r, b, c, q, rest, evs, h, hb, hc, hq, hd => by
    rw [hc, List.flatten_nil, List.append_nil, List.append_assoc] at hd
    have := congrArg List.length hd
    simp only [List.length_append] at this
    have : 0 < q.length := List.length_pos_iff.mpr hq
    omega
  | d :: ds, r, b, c, q, rest, evs, h, hb, hc, hq, hd => by
    have hb' : Buf.OK ⟨b.pieces ++ [d], b.size + d.length⟩ := by
      unfold Buf.OK at hb ⊢
      simp only [List.flatten_append, List.flatten_cons, List.flatten_nil, List.append_nil, List.length_append]
      omega
    have hf : (Buf.pieces ⟨b.pieces ++ [d], b.size + d.length⟩).flatten = b.pieces.flatten ++ d := by simp
    rw [List.flatten_cons, ← List.append_assoc] at hd
    unfold receiveAll receive
    rcases List.append_eq_append_iff.mp hd with ⟨a, ha1, ha2⟩ | ⟨a, ha1, ha2⟩
    · by_cases ha : a = []
      · subst ha
        rw [List.append_nil] at ha1
        obtain ⟨b', c1, c2, c3⟩ := loop_steps h hn (b := ⟨b.pieces ++ [d], b.size + d.length⟩) (rest := []) none
          (2 * (Buf.pieces ⟨b.pieces ++ [d], b.size + d.length⟩).flatten.length + 3) hb' (by rw [hf, List.append_nil, ha1])
          (by rw [hf, ← ha1]; omega)
        refine ⟨⟨r', b', evs, true⟩, ds, ?_, rfl, rfl, rfl, c2, ?_⟩
        · dsimp only
          rw [c1]
          rfl
        · show b'.pieces.flatten ++ _ = _
          rw [c3]; exact ha2
      · obtain ⟨r1, b', e1, e2, c', d1, d2, d3, d4, d5⟩ := loop_partial h (b := ⟨b.pieces ++ [d], b.size + d.length⟩)
          (p := b.pieces.flatten ++ d) (q := a) none
          (2 * (Buf.pieces ⟨b.pieces ++ [d], b.size + d.length⟩).flatten.length + 3) hb' hf ha1 ha (by rw [hf]; omega)
        obtain ⟨x, ds', f1, f2, f3, f4, f5, f6⟩ := receiveAll_steps hn ds r1 b' c' a rest e2 d5 d2 d3 ha
          (by rw [d3, List.append_assoc, ha2])
        dsimp only
        rw [d1]
        dsimp only [bind, Except.bind]
        rw [f1]
        refine ⟨{x with evs := e1 ++ x.evs}, ds', rfl, f2, f3, ?_, f5, f6⟩
        show e1 ++ x.evs = _
        rw [f4, d4]
    · obtain ⟨b', c1, c2, c3⟩ := loop_steps h hn (b := ⟨b.pieces ++ [d], b.size + d.length⟩) (rest := a) none
        (2 * (Buf.pieces ⟨b.pieces ++ [d], b.size + d.length⟩).flatten.length + 3) hb' (by rw [hf, ha1])
        (by rw [hf, ha1, List.length_append]; omega)
      refine ⟨⟨r', b', evs, true⟩, ds, ?_, rfl, rfl, rfl, c2, ?_⟩
      · dsimp only
        rw [c1]
        rfl
      · show b'.pieces.flatten ++ _ = _
        rw [c3, ha2]

/-! ## Lines -/

theorem cutLine_inline {s : Str} (h : Inline s) : cutLine (s ++ eol) = some (s ++ eol, []) := by
  induction s with
  | nil => rfl
  | cons c s ih =>
    have hc := h c List.mem_cons_self
    have hi := ih fun d hd => h d (List.mem_cons_of_mem _ hd)
    rw [List.cons_append]
    unfold cutLine
    split
    · next heq => cases heq
    · next heq => injection heq with h1 _; exact absurd h1 hc.1
    · next heq => cases heq; rw [hi]; rfl

theorem dropLine (s : Str) : (s ++ eol).dropLast.dropLast = s := by
  have : s ++ eol = (s ++ ['\r']) ++ ['\n'] := by simp [eol]
  rw [this, List.dropLast_concat, List.dropLast_concat]

theorem line_ne {s : Str} (h : s ≠ []) : s ++ eol ≠ crlfStr := by
  intro e
  have := congrArg List.length e
  simp [eol, crlfStr] at this
  exact h this

/-! ## Header fields -/

/-- The headers after some fields. -/
def after (h : Headers) (fs : List Field) : Headers := fs.foldl (fun h f => setHeader h f.name (some f.content) true) h

theorem getHeader_set (h : Headers) (n v name : Str) : getHeader (setHeader h n (some v) true) name =
    if sameName n name then some (match getHeader h name with | some o => o ++ [',', ' '] ++ v | none => v)
    else getHeader h name := by
  unfold setHeader getHeader sameName
  by_cases hn : Py.lower n = Py.lower name
  · rw [hn]
    cases hg : Dict.get h (Py.lower name) with
    | none => simp [Dict.get_set]
    | some o => simp [Dict.get_set]
  · cases hg : Dict.get h (Py.lower n) with
    | none => simp [Dict.get_set, hn, Ne.symm hn]
    | some o => simp [Dict.get_set, hn, Ne.symm hn]

theorem commas_join (o v : Str) (vs : List Str) : commas ((o ++ [',', ' '] ++ v) :: vs) = commas (o :: v :: vs) := by
  cases vs with
  | nil => rfl
  | cons w vs => simp [commas]

theorem getHeader_after (fs : List Field) (h : Headers) (name : Str) : getHeader (after h fs) name =
    match getHeader h name with
    | none => valueOf fs name
    | some o => some (commas (o :: valuesOf fs name)) := by
  induction fs generalizing h with
  | nil =>
    show getHeader h name = _
    cases getHeader h name with
    | none => rfl
    | some o => rfl
  | cons f fs ih =>
    show getHeader (after (setHeader h f.name (some f.content) true) fs) name = _
    rw [ih, getHeader_set]
    unfold valueOf valuesOf
    rw [List.filter_cons]
    cases hs : sameName f.name name with
    | false => simp
    | true =>
      cases hg : getHeader h name with
      | none => simp
      | some o => simp only [if_true, List.map_cons]; rw [commas_join]

theorem lws_start {c : Char} {t : Str} (h1 : c ≠ ' ') (h2 : c ≠ '\t') (h3 : c ≠ '\r') : lws (c :: t) = none :=
  lws_none (by simp [isSp, h1, h2]) h3

theorem colon_line {f : Field} (hf : f.OK) (t : Str) : ∃ c u, f.name ++ ':' :: t = c :: u ∧ c ≠ ' ' ∧ c ≠ '\t' ∧ c ≠ '\r' := by
  cases hn : f.name with
  | nil => exact ⟨':', t, rfl, by decide, by decide, by decide⟩
  | cons c u =>
    have h1 := hf.start c u hn
    exact ⟨c, u ++ ':' :: t, rfl, h1.1, h1.2, (hf.name c (by rw [hn]; exact List.mem_cons_self)).1⟩

/-- The first line of a field. -/
theorem readHeader_first {r : Resp} {f : Field} (hf : f.OK) : readHeader r (f.name ++ ':' :: f.value ++ eol) =
    .ok { flush r with curr := some (f.name, f.value ++ eol) } := by
  unfold readHeader
  have h0 : f.name ++ ':' :: f.value ++ eol ≠ crlfStr := line_ne (by simp)
  obtain ⟨c, u, h1, h2, h3, h4⟩ := colon_line hf (f.value ++ eol)
  have e : f.name ++ ':' :: f.value ++ eol = f.name ++ ':' :: (f.value ++ eol) := by simp
  rw [if_neg h0, e]
  have hl : lws (f.name ++ ':' :: (f.value ++ eol)) = none := by rw [h1]; exact lws_start h2 h3 h4
  have ht := takeWhile_append_stop (p := fun c => decide (c ≠ ':')) (t := f.name) (rest := ':' :: (f.value ++ eol))
    (by rw [List.all_eq_true]; intro c hc; simp; rintro rfl; exact hf.colon hc) (by intro c u e; cases e; rfl)
  rw [hl, ht.1, ht.2]
  dsimp only [Option.isSome]
  rw [if_pos (by simp)]
  rfl

/-- A line that continues a field. -/
theorem readHeader_more {r : Resp} {n v l : Str} (hr : r.curr = some (n, v)) (hl : ∃ c t, l = c :: t ∧ (c = ' ' ∨ c = '\t')) :
    readHeader r (l ++ eol) = .ok { r with curr := some (n, v ++ (l ++ eol)) } := by
  obtain ⟨c, t, rfl, hc⟩ := hl
  unfold readHeader
  rw [if_neg (line_ne (by simp)), hr]
  have h1 : isSp c = true := isSp_iff.mpr hc
  have : (lws (c :: t ++ eol)).isSome = true := by
    rw [List.cons_append, lws_sp h1]
    rfl
  rw [this]

theorem readHeader_end (r : Resp) : readHeader r eol = .ok { flush r with curr := none } := by
  unfold readHeader
  exact if_pos rfl

/-- A line of a field in a response that reads fields. -/
theorem step_line {m : Str} {r r' : Resp} {s : Str} (hm : r.mode = .header ∨ r.mode = .chunkTrailer) (hi : Inline s) (hs : s ≠ [])
    (h : readHeader r (s ++ eol) = .ok r') : Step m r (s ++ eol) r' [] := by
  refine .inl ⟨?_, cutLine_inline hi, ?_⟩
  · unfold needs
    rcases hm with hm | hm <;> rw [hm]
  · unfold recvLine
    rcases hm with hm | hm <;> rw [hm] <;> dsimp only <;> rw [h] <;> dsimp only <;> rw [if_neg (line_ne hs)]

theorem flush_eq (r : Resp) : flush r = { r with headers := (flush r).headers } := by
  unfold flush
  split <;> rfl

theorem flush_some (r : Resp) (h : Headers) (n v : Str) : (flush { r with headers := h, curr := some (n, v ++ eol) }).headers =
    setHeader h n (some v) true := by
  unfold flush
  dsimp only
  rw [dropLine]

theorem more_steps {m : Str} {r : Resp} (hm : r.mode = .header ∨ r.mode = .chunkTrailer) {n : Str} :
    ∀ (ls : List Str) (v : Str), r.curr = some (n, v ++ eol) → (∀ l ∈ ls, Inline l ∧ ∃ c t, l = c :: t ∧ (c = ' ' ∨ c = '\t')) →
      Steps m r (ls.flatMap (· ++ eol)) { r with curr := some (n, v ++ ls.flatMap (eol ++ ·) ++ eol) } []
  | [], v, hr, _ => by
    have : ({ r with curr := some (n, v ++ [].flatMap (eol ++ ·) ++ eol) } : Resp) = r := by
      simp only [List.flatMap_nil, List.append_nil]
      rw [← hr]
    rw [this]
    exact .refl r
  | l :: ls, v, hr, h => by
    have hl := h l List.mem_cons_self
    have h1 := step_line (m := m) hm hl.1 (by obtain ⟨c, t, e, _⟩ := hl.2; rw [e]; exact List.cons_ne_nil _ _) (readHeader_more hr hl.2)
    have h2 := more_steps (m := m) (r := { r with curr := some (n, v ++ eol ++ (l ++ eol)) }) (n := n) hm ls (v ++ eol ++ l)
      (by simp) (fun x hx => h x (List.mem_cons_of_mem _ hx))
    have := Steps.step h1 h2
    simpa [List.append_assoc] using this

theorem field_steps {m : Str} {r : Resp} (hm : r.mode = .header ∨ r.mode = .chunkTrailer) {f : Field} (hf : f.OK) :
    Steps m r f.text { flush r with curr := some (f.name, f.content ++ eol) } [] := by
  have hi : Inline (f.name ++ ':' :: f.value) := by
    intro c hc
    rcases List.mem_append.mp hc with hc | hc
    · exact hf.name c hc
    · cases hc with
      | head => decide
      | tail _ hc => exact hf.value c hc
  have h1 := step_line (m := m) hm hi (by simp) (readHeader_first (r := r) hf)
  have h2 := more_steps (m := m) (r := { flush r with curr := some (f.name, f.value ++ eol) }) (n := f.name)
    (by rw [flush_eq]; exact hm) f.more f.value rfl hf.more
  have := Steps.step h1 h2
  have e : f.name ++ ':' :: f.value ++ eol ++ f.more.flatMap (· ++ eol) = f.text := by
    unfold Field.text Field.content
    have : ∀ ls : List Str, eol ++ ls.flatMap (· ++ eol) = ls.flatMap (eol ++ ·) ++ eol := by
      intro ls
      induction ls with
      | nil => rfl
      | cons l ls ih => simp [ih]
    rw [List.append_assoc, this]
    simp
  rw [e] at this
  exact this

/-- Fields are read. -/
theorem fields_steps {m : Str} : ∀ (fs : List Field) (r : Resp), (r.mode = .header ∨ r.mode = .chunkTrailer) → (∀ f ∈ fs, f.OK) →
    ∃ h c, Steps m r (fs.flatMap Field.text) { r with headers := h, curr := c } [] ∧
      (flush { r with headers := h, curr := c }).headers = after (flush r).headers fs
  | [], r, _, _ => ⟨r.headers, r.curr, .refl r, rfl⟩
  | f :: fs, r, hm, h => by
    have h1 := field_steps (m := m) hm (h f List.mem_cons_self)
    obtain ⟨x, c, h2, h3⟩ := fields_steps (m := m) fs { flush r with curr := some (f.name, f.content ++ eol) }
      (by rw [flush_eq]; exact hm) (fun g hg => h g (List.mem_cons_of_mem _ hg))
    have h4 := h1.trans h2
    rw [flush_eq r] at h4 h3
    refine ⟨x, c, h4, ?_⟩
    dsimp only at h3 ⊢
    rw [h3, flush_some]
    rfl

/-! ## Words -/

theorem safe_inline {s : Str} (h : Safe s) : Inline s := by
  intro c hc
  rcases h c hc with rfl | ⟨h1, _⟩
  · decide
  · constructor <;> rintro rfl <;> revert h1 <;> decide

theorem safe_cases {c : Char} (h : c = '\t' ∨ (32 ≤ c.toNat ∧ c.toNat ≠ 127 ∧ c ≠ '(' ∧ c ≠ '"')) :
    (isSep c = true ∧ c ≠ '(' ∧ c ≠ '"') ∨ (isSep c = false ∧ isTok c = true) := by
  rcases h with rfl | ⟨h1, h2, h3, h4⟩
  · exact .inl (by decide)
  · cases hs : isSep c with
    | true => exact .inl ⟨rfl, h3, h4⟩
    | false =>
      refine .inr ⟨rfl, ?_⟩
      unfold isTok isCtl
      rw [hs]
      simp
      omega

theorem skipLws_inline {s : Str} (h : Inline s) : skipLws s = (decide (s.takeWhile isSp ≠ []), s.dropWhile isSp) := by
  have hnil : ∀ t : Str, Inline t → crlf t = none := by
    intro t ht
    unfold crlf
    split
    · exact absurd rfl (ht _ List.mem_cons_self).1
    · rfl
  have hl : ∀ t : Str, Inline t → lws t = if t.takeWhile isSp = [] then none else some (t.takeWhile isSp, t.dropWhile isSp) := by
    intro t ht
    unfold lws
    rw [hnil t ht]
    rfl
  by_cases h0 : s.takeWhile isSp = []
  · have : lws s = none := by rw [hl s h, if_pos h0]
    rw [skipLws_none this]
    have hd : s.dropWhile isSp = s := by
      have := List.takeWhile_append_dropWhile (p := isSp) (l := s)
      rw [h0] at this
      exact this
    rw [hd]
    simp [h0]
  · have : lws s = some (s.takeWhile isSp, s.dropWhile isSp) := by rw [hl s h, if_neg h0]
    rw [skipLws_some this]
    have hi : Inline (s.dropWhile isSp) := fun c hc => h c (List.dropWhile_suffix _ |>.subset hc)
    have hn : lws (s.dropWhile isSp) = none := by
      rw [hl _ hi, if_pos]
      cases hd : s.dropWhile isSp with
      | nil => rfl
      | cons d v =>
        have : isSp d = false := by
          have := List.head?_dropWhile_not isSp s
          rw [hd] at this
          simpa using this
        rw [List.takeWhile_cons, this]
        rfl
    rw [skipLws_none hn]
    simp [h0]

theorem dropWhile_nil_all {p : Char → Bool} : ∀ {l : Str}, l.dropWhile p = [] → ∀ x ∈ l, p x = true
  | [], _, _, hx => by cases hx
  | c :: t, h, x, hx => by
    rw [List.dropWhile_cons] at h
    split at h
    · next hc =>
      cases hx with
      | head => exact hc
      | tail _ hx => exact dropWhile_nil_all h x hx
    · cases h

/-- Text without comments and quotes has words; all of them are words if it does not end in white space. -/
theorem words_safe (ign : Bool) : ∀ (k : Nat) (s : Str), s.length ≤ k → Safe s →
    ∃ ws, words ign s = some (.ok ws) ∧ ((∀ c, s.getLast? = some c → ¬ isSpace c) → none ∉ ws)
  | _, [], _, _ => ⟨[], words_nil ign, by simp⟩
  | 0, c :: t, hk, _ => by simp at hk
  | k + 1, c :: t, hk, h => by
    have hsk := skipLws_inline (safe_inline h)
    have hle := skipLws_le (c :: t)
    rw [hsk] at hle
    dsimp only at hle
    have hsuf : (c :: t).dropWhile isSp <:+ c :: t := List.dropWhile_suffix _
    cases hu : (c :: t).dropWhile isSp with
    | nil =>
      rw [hu] at hsk hle
      have := @words_step ign _ (c :: t) [] [] none [] (by simp) hsk rfl (by simp) (words_nil ign)
      refine ⟨_, this, ?_⟩
      intro hlast
      exfalso
      have hall : ∀ x ∈ c :: t, isSp x = true := dropWhile_nil_all hu
      have hg := List.getLast?_eq_some_getLast (List.cons_ne_nil c t)
      exact hlast _ hg (isSp_iff.mp (hall _ (List.getLast_mem _)))
    | cons d v =>
      rw [hu] at hsk hle hsuf
      have hd := safe_cases (h d (hsuf.subset List.mem_cons_self))
      have hrest : ∃ w r, oneWord (d :: v) = .ok (some w, r) ∧ r <:+ v := by
        unfold oneWord
        rcases hd with ⟨h1, h2, h3⟩ | ⟨h1, h2⟩
        · exact ⟨[d], v, by simp only; rw [if_pos h1, if_neg h2, if_neg h3], List.suffix_refl _⟩
        · refine ⟨(d :: v).takeWhile isTok, (d :: v).dropWhile isTok, ?_, ?_⟩
          · simp only
            rw [if_neg (by rw [h1]; decide), if_pos h2]
          · rw [List.dropWhile_cons, h2]
            exact List.dropWhile_suffix _
      obtain ⟨w, r, h1, h2⟩ := hrest
      have hlen := h2.length_le
      simp only [List.length_cons] at hle hk
      have hrs : r <:+ c :: t := (h2.trans (List.suffix_cons _ _)).trans hsuf
      obtain ⟨ws, h3, h4⟩ := words_safe ign k r (by omega) (fun x hx => h x (hrs.subset hx))
      refine ⟨_, words_step (by simp) hsk h1 (by simp only [List.length_cons]; omega) h3, ?_⟩
      intro hlast
      have hn : none ∉ ws := h4 (by
        intro x hx
        apply hlast x
        obtain ⟨p, hp⟩ := hrs
        rw [← hp, List.getLast?_append, hx]
        rfl)
      intro hm
      rcases List.mem_append.mp hm with hm | hm
      · split at hm
        · simp at hm
        · simp at hm
      · cases hm with
        | tail _ hm => exact hn hm

end Verif.Http.Msg
