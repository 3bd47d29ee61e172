import Verif.Model.Rfc2234

/-!
# Reading from files is reading from strings, and rewinding goes back
-/

namespace Verif.Props.Rfc2234
open Verif Verif.Rfc2234

/-- A position and a character of a parser of a file with this buffer: the character is there, or all was read. -/
def Good (data : Str) (chunks : List Str) (pos : Nat) (ch : Option Char) : Prop :=
  ch = data[pos]? ∧ (data.length ≤ pos → chunks = [])

theorem good_more {data : Str} {chunks : List Str} {pos : Nat} {ch : Option Char} (h : Good data chunks pos ch) :
    Good (data ++ (readChunk chunks).1) (readChunk chunks).2 pos ch := by
  by_cases hp : data.length ≤ pos
  · rw [h.2 hp]
    simp only [readChunk, List.append_nil]
    exact ⟨h.1, fun _ => rfl⟩
  · refine ⟨?_, ?_⟩
    · rw [List.getElem?_append_left (by omega)]
      exact h.1
    · intro hl
      rw [List.length_append] at hl
      omega

/-- A saved state of a file, and that of the string, `c` characters being no longer in the buffer. -/
def SameSaved (c : Nat) (f s : Saved) : Prop := s.line = f.line ∧ s.base = f.base + c ∧ s.pos = f.pos + c ∧ s.ch = f.ch

/-- The stacks agree, and the saved places of the file can be read again. -/
def SameStack (c : Nat) (data : Str) (chunks : List Str) : List Saved → List Saved → Prop
  | [], [] => True
  | f :: fs, s :: ss => SameSaved c f s ∧ Good data chunks f.pos f.ch ∧ SameStack c data chunks fs ss
  | _, _ => False

theorem sameStack_more {c : Nat} {data : Str} {chunks : List Str} : ∀ {fs ss : List Saved}, SameStack c data chunks fs ss →
    SameStack c (data ++ (readChunk chunks).1) (readChunk chunks).2 fs ss
  | [], [], _ => trivial
  | _ :: _, _ :: _, h => ⟨h.1, good_more h.2.1, sameStack_more h.2.2⟩
  | [], _ :: _, h => h.elim
  | _ :: _, [], h => h.elim

/-- A parser of a file and one of the whole string are at the same place. -/
structure Same (whole : Str) (f s : Parser) : Prop where
  file : ∃ c chunks, f.source = some chunks ∧ (∀ x ∈ chunks, x ≠ []) ∧ f.data ++ chunks.flatten = whole.drop c ∧ c ≤ whole.length ∧
    s.base = f.base + c ∧ s.pos = f.pos + c ∧ Good f.data chunks f.pos f.ch ∧ SameStack c f.data chunks f.stack s.stack
  data : s.data = whole
  source : s.source = none
  line : s.line = f.line
  ch : s.ch = f.ch

theorem readChunk_flatten (chunks : List Str) : (readChunk chunks).1 ++ (readChunk chunks).2.flatten = chunks.flatten := by
  cases chunks <;> rfl

theorem readChunk_some {chunks : List Str} (h : ∀ x ∈ chunks, x ≠ []) : ∀ x ∈ (readChunk chunks).2, x ≠ [] := by
  cases chunks with
  | nil => exact h
  | cons c cs => exact fun x hx => h x (List.mem_cons_of_mem _ hx)

/-- After reading, the place after the buffer is good. -/
theorem good_read {data : Str} {chunks : List Str} (h : ∀ x ∈ chunks, x ≠ []) :
    Good (data ++ (readChunk chunks).1) (readChunk chunks).2 data.length (data ++ (readChunk chunks).1)[data.length]? := by
  refine ⟨rfl, ?_⟩
  cases chunks with
  | nil => exact fun _ => rfl
  | cons c cs =>
    intro hl
    have : c ≠ [] := h c List.mem_cons_self
    cases c with
    | nil => exact absurd rfl this
    | cons x xs =>
      simp only [readChunk, List.length_append, List.length_cons] at hl
      omega

theorem at_whole {whole data : Str} {chunks : List Str} {c pos : Nat} {ch : Option Char}
    (hd : data ++ chunks.flatten = whole.drop c) (hg : Good data chunks pos ch) : whole[pos + c]? = ch := by
  have h1 : whole[pos + c]? = (whole.drop c)[pos]? := by rw [List.getElem?_drop, Nat.add_comm]
  rw [h1, ← hd, hg.1]
  by_cases hp : data.length ≤ pos
  · rw [hg.2 hp]; simp
  · rw [List.getElem?_append_left (by omega)]

theorem same_char {whole : Str} {f s : Parser} (h : Same whole f s) : Same whole (nextChar f) (nextChar s) := by
  obtain ⟨⟨c, chunks, hsrc, hne, hd, hc, hbase, hpos, hgood, hst⟩, hdata, hsource, hline, hch⟩ := h
  unfold nextChar
  rw [hch, hsrc, hsource]
  cases hf : f.ch with
  | none => exact ⟨⟨c, chunks, hsrc, hne, hd, hc, hbase, hpos, hgood, hst⟩, hdata, hsource, hline, hch⟩
  | some x =>
    dsimp only
    have hlt : f.pos < f.data.length := by
      have := hgood.1
      rw [hf] at this
      exact (List.getElem?_eq_some_iff.1 this.symm).1
    split
    · next hle =>
      have heq : f.pos + 1 = f.data.length := by omega
      split
      · have hg := good_read (data := f.data) hne
        rw [← heq] at hg
        have hd' : (f.data ++ (readChunk chunks).1) ++ (readChunk chunks).2.flatten = whole.drop c := by
          rw [List.append_assoc, readChunk_flatten]
          exact hd
        refine ⟨⟨c, _, rfl, readChunk_some hne, hd', hc, hbase, by dsimp only; omega, hg, sameStack_more hst⟩, hdata, rfl, hline, ?_⟩
        dsimp only
        rw [hdata, hpos, ← at_whole hd' hg]
        congr 1
        omega
      · next hstack =>
        have hnil : f.stack = [] := by
          cases hfs : f.stack with
          | nil => rfl
          | cons a b => exact absurd (by rw [hfs]; exact (nomatch ·)) hstack
        have hg := good_read (data := []) hne
        simp only [List.nil_append, List.length_nil] at hg
        have hd' : (readChunk chunks).1 ++ (readChunk chunks).2.flatten = whole.drop (c + f.data.length) := by
          rw [readChunk_flatten, ← List.drop_drop, ← hd, List.drop_left]
        have hlen : f.data.length ≤ whole.length - c := by
          have := congrArg List.length hd
          rw [List.length_append, List.length_drop] at this
          omega
        rw [hnil] at hst
        refine ⟨⟨c + f.data.length, _, rfl, readChunk_some hne, hd', by omega, ?_, ?_, hg, ?_⟩, hdata, rfl, hline, ?_⟩
        · dsimp only
          rw [hbase, Int.natCast_add]
          omega
        · dsimp only
          omega
        · dsimp only
          rw [hnil]
          cases hss : s.stack with
          | nil => trivial
          | cons a b => rw [hss] at hst; exact hst.elim
        · dsimp only
          rw [hdata, hpos, ← at_whole hd' hg]
          congr 1
          omega
    · next hle =>
      have hg : Good f.data chunks (f.pos + 1) f.data[f.pos + 1]? := ⟨rfl, fun hl => absurd hl hle⟩
      refine ⟨⟨c, chunks, rfl, hne, hd, hc, hbase, by dsimp only; omega, hg, hst⟩, hdata, rfl, hline, ?_⟩
      dsimp only
      rw [hdata, hpos, ← at_whole hd hg]
      congr 1
      omega

/-- Two results of a call: both fail, or both are at the same place. -/
def SameResult (whole : Str) : Option Parser → Option Parser → Prop
  | none, none => True
  | some f, some s => Same whole f s
  | _, _ => False

theorem same_step {whole : Str} {f s : Parser} (h : Same whole f s) (o : Op) : SameResult whole (step f o) (step s o) := by
  cases o with
  | char => exact same_char h
  | line =>
    obtain ⟨⟨c, chunks, hsrc, hne, hd, hc, hbase, hpos, hgood, hst⟩, hdata, hsource, hline, hch⟩ := h
    refine ⟨⟨c, chunks, hsrc, hne, hd, hc, ?_, hpos, hgood, hst⟩, hdata, hsource, by simp [nextLine, hline], hch⟩
    simp [nextLine, hpos]
  | push =>
    obtain ⟨⟨c, chunks, hsrc, hne, hd, hc, hbase, hpos, hgood, hst⟩, hdata, hsource, hline, hch⟩ := h
    exact ⟨⟨c, chunks, hsrc, hne, hd, hc, hbase, hpos, hgood, ⟨hline, hbase, hpos, hch⟩, hgood, hst⟩, hdata, hsource, hline, hch⟩
  | pop r =>
    obtain ⟨⟨c, chunks, hsrc, hne, hd, hc, hbase, hpos, hgood, hst⟩, hdata, hsource, hline, hch⟩ := h
    simp only [step, pop]
    cases hfs : f.stack with
    | nil =>
      cases hss : s.stack with
      | nil => trivial
      | cons a b => rw [hfs, hss] at hst; exact hst.elim
    | cons a b =>
      cases hss : s.stack with
      | nil => rw [hfs, hss] at hst; exact hst.elim
      | cons a' b' =>
        rw [hfs, hss] at hst
        obtain ⟨⟨h1, h2, h3, h4⟩, hg, hst⟩ := hst
        cases r with
        | true => exact ⟨⟨c, chunks, hsrc, hne, hd, hc, h2, h3, hg, hst⟩, hdata, hsource, h1, h4⟩
        | false => exact ⟨⟨c, chunks, hsrc, hne, hd, hc, hbase, hpos, hgood, hst⟩, hdata, hsource, hline, hch⟩

theorem same_run {whole : Str} : ∀ (ops : List Op) {f s : Parser}, Same whole f s → SameResult whole (run f ops) (run s ops)
  | [], _, _, h => h
  | o :: os, f, s, h => by
    have hstep := same_step h o
    unfold run
    cases hf : step f o with
    | none =>
      cases hs : step s o with
      | none => trivial
      | some s' => rw [hf, hs] at hstep; exact hstep.elim
    | some f' =>
      cases hs : step s o with
      | none => rw [hf, hs] at hstep; exact hstep.elim
      | some s' => rw [hf, hs] at hstep; exact same_run os hstep

theorem same_start (chunks : List Str) (hne : ∀ x ∈ chunks, x ≠ []) (line : Nat) (base : Int) :
    Same chunks.flatten (ofFile chunks line base) (ofString chunks.flatten line base) := by
  have hg := good_read (data := []) hne
  simp only [List.nil_append, List.length_nil] at hg
  have hd : (readChunk chunks).1 ++ (readChunk chunks).2.flatten = chunks.flatten.drop 0 := by
    rw [readChunk_flatten, List.drop_zero]
  refine ⟨⟨0, _, rfl, readChunk_some hne, hd, Nat.zero_le _, by simp [ofString, ofFile], rfl, hg, trivial⟩, rfl, rfl, rfl, ?_⟩
  simp only [ofString, ofFile]
  rw [← at_whole hd hg]

/-- C338.  Reading from a file shows the same characters, lines and positions as reading from a string with its contents, in whatever
pieces the file is read and however often the parser goes back; calls fail for both or for neither. -/
theorem rfc2234_file_is_string (chunks : List Str) (hne : ∀ x ∈ chunks, x ≠ []) (line : Nat) (base : Int) (ops : List Op) :
    (run (ofFile chunks line base) ops).map seen = (run (ofString chunks.flatten line base) ops).map seen := by
  have h := same_run ops (same_start chunks hne line base)
  cases hf : run (ofFile chunks line base) ops with
  | none =>
    cases hs : run (ofString chunks.flatten line base) ops with
    | none => rfl
    | some s => rw [hf, hs] at h; exact h.elim
  | some f =>
    cases hs : run (ofString chunks.flatten line base) ops with
    | none => rw [hf, hs] at h; exact h.elim
    | some s =>
      rw [hf, hs] at h
      obtain ⟨⟨c, _, _, _, _, _, hbase, hpos, _⟩, _, _, hline, hch⟩ := h
      simp only [Option.map_some, seen, hline, hch, hbase, hpos]
      congr 3
      omega

/-- What is read of a string by `n` calls of `NextChar` is its characters in order. -/
theorem rfc2234_reads (s : Str) (line : Nat) (base : Int) : ∀ n : Nat,
    ∃ p, run (ofString s line base) (List.replicate n .char) = some p ∧ p.ch = s[n]? := by
  have go : ∀ (n k : Nat) (p : Parser), p.data = s → p.source = none → p.ch = s[k]? → (p.pos = k ∨ s.length ≤ k) →
      ∃ q, run p (List.replicate n .char) = some q ∧ q.ch = s[k + n]? := by
    intro n
    induction n with
    | zero => intro k p _ _ h _; exact ⟨p, rfl, h⟩
    | succ n ih =>
      intro k p hd hs hc hp
      rw [List.replicate_succ]
      simp only [run, step]
      have he : k + (n + 1) = (k + 1) + n := by omega
      rw [he]
      by_cases hk : s.length ≤ k
      · have hnone : p.ch = none := by rw [hc]; exact List.getElem?_eq_none hk
        have hn : nextChar p = p := by unfold nextChar; rw [hnone]
        rw [hn]
        exact ih (k + 1) p hd hs (by rw [hnone]; exact (List.getElem?_eq_none (by omega)).symm) (.inr (by omega))
      · have hpos : p.pos = k := by rcases hp with h | h <;> omega
        have hsome : p.ch = some (s[k]'(by omega)) := by rw [hc]; exact List.getElem?_eq_getElem _
        have hn : nextChar p = { p with pos := p.pos + 1, ch := p.data[p.pos + 1]? } := by
          unfold nextChar; rw [hsome, hs]
        rw [hn]
        exact ih (k + 1) _ hd hs (by simp [hd, hpos]) (.inl (by simp [hpos]))
  intro n
  obtain ⟨p, h1, h2⟩ := go n 0 (ofString s line base) rfl rfl rfl (.inl rfl)
  exact ⟨p, h1, by rw [h2, Nat.zero_add]⟩

/-- Calls in which every state that is saved is dropped or returned to, and no other. -/
inductive Balanced : List Op → Prop
  | nil : Balanced []
  | char {os} : Balanced os → Balanced (.char :: os)
  | line {os} : Balanced os → Balanced (.line :: os)
  | push {os os'} (r : Bool) : Balanced os → Balanced os' → Balanced (.push :: (os ++ .pop r :: os'))

theorem run_append (os' : List Op) : ∀ (os : List Op) (p : Parser), run p (os ++ os') = (run p os).bind fun q => run q os'
  | [], _ => rfl
  | o :: os, p => by
    rw [List.cons_append, run, run]
    cases step p o with
    | none => rfl
    | some q => exact run_append os' os q

theorem balanced_run {os : List Op} (h : Balanced os) : ∀ p : Parser, p.source = none →
    ∃ q, run p os = some q ∧ q.data = p.data ∧ q.source = none ∧ q.stack = p.stack := by
  induction h with
  | nil => intro p hp; exact ⟨p, rfl, rfl, hp, rfl⟩
  | char _ ih =>
    intro p hp
    have hn : (nextChar p).data = p.data ∧ (nextChar p).source = none ∧ (nextChar p).stack = p.stack := by
      unfold nextChar
      rw [hp]
      cases p.ch with
      | none => exact ⟨rfl, hp, rfl⟩
      | some _ => exact ⟨rfl, rfl, rfl⟩
    obtain ⟨q, h1, h2, h3, h4⟩ := ih (nextChar p) hn.2.1
    exact ⟨q, h1, h2.trans hn.1, h3, h4.trans hn.2.2⟩
  | line _ ih => intro p hp; exact ih (nextLine p) hp
  | push r _ _ ih ih' =>
    intro p hp
    obtain ⟨q, h1, h2, h3, h4⟩ := ih (push p) hp
    simp only [run, step]
    rw [run_append, h1]
    simp only [Option.bind_some, run, step, pop, h4, push]
    cases r with
    | true =>
      obtain ⟨q', g1, g2, g3, g4⟩ := ih' { q with line := p.line, base := p.base, pos := p.pos, ch := p.ch, stack := p.stack } h3
      exact ⟨q', g1, g2.trans h2, g3, g4⟩
    | false =>
      obtain ⟨q', g1, g2, g3, g4⟩ := ih' { q with stack := p.stack } h3
      exact ⟨q', g1, g2.trans h2, g3, g4⟩

/-- Going back in a string gives the state that was saved. -/
theorem rewind_string {mid : List Op} (hb : Balanced mid) (p : Parser) (hp : p.source = none) :
    run p (.push :: (mid ++ [.pop true])) = some p := by
  obtain ⟨q, h1, h2, h3, h4⟩ := balanced_run hb (push p) hp
  simp only [run, step]
  rw [run_append, h1]
  simp only [Option.bind_some, run, step, pop, h4, push, if_true]
  simp only [push] at h2
  rw [h2, h3, ← hp]

theorem source_run : ∀ (os : List Op) (p q : Parser), p.source = none → run p os = some q → q.source = none
  | [], p, q, hp, h => by cases h; exact hp
  | o :: os, p, q, hp, h => by
    unfold run at h
    cases hs : step p o with
    | none => rw [hs] at h; cases h
    | some r =>
      rw [hs] at h
      refine source_run os r q ?_ h
      cases o with
      | char =>
        cases hs
        unfold nextChar
        rw [hp]
        cases p.ch with
        | none => exact hp
        | some _ => rfl
      | line => cases hs; exact hp
      | push => cases hs; exact hp
      | pop b =>
        simp only [step, pop] at hs
        split at hs
        · cases hs
        · cases b <;> (cases hs; exact hp)

/-- C339.  A parser that went back behaves as if what was tried had not been: whatever was done since the state was saved, with other
states saved and left in between, all later calls show the same — for strings and for files, also if the file was read on. -/
theorem rfc2234_rewind (chunks : List Str) (hne : ∀ x ∈ chunks, x ≠ []) (line : Nat) (base : Int) (before mid after : List Op)
    (hb : Balanced mid) :
    (run (ofFile chunks line base) (before ++ .push :: (mid ++ .pop true :: after))).map seen =
      (run (ofFile chunks line base) (before ++ after)).map seen := by
  rw [rfc2234_file_is_string chunks hne, rfc2234_file_is_string chunks hne]
  congr 1
  rw [run_append, run_append]
  cases hr : run (ofString chunks.flatten line base) before with
  | none => rfl
  | some p =>
    simp only [Option.bind_some]
    have hp := source_run before _ p rfl hr
    have : Op.push :: (mid ++ Op.pop true :: after) = (Op.push :: (mid ++ [Op.pop true])) ++ after := by simp
    rw [this, run_append, rewind_string hb p hp]
    rfl

/-- The hypotheses can be met: a file in two pieces, with a state saved in the first and returned to from the second. -/
theorem rfc2234_rewind_sample :
    Balanced [.char, .push, .char, .line, .pop false, .char] ∧
    (run (ofFile ["ab".toList, "cd".toList] 0 0) [.char, .push, .char, .push, .char, .line, .pop false, .char, .pop true]).map seen =
      some (some 'b', 0, 1) := by
  refine ⟨.char (.push (os := [.char, .line]) (os' := [.char]) false (.char (.line .nil)) (.char .nil)), by decide +kernel⟩

end Verif.Props.Rfc2234
