import Verif.Lemmas.Rtf
import Verif.Props.QtiTypes

/-!
# RTF: the tokenizer finishes, tags are nested, errors are reported
-/

set_option linter.unusedVariables false
set_option linter.unusedSimpArgs false

namespace Verif.Props

open Verif Verif.Rtf
open Verif.Spec.Rtf (Nested)

/-! ## Tags are nested (C23) -/

theorem nested_wrap (l : List Tag) {x : List Token} (h : Nested x) :
    Nested (l.map .stag ++ x ++ l.reverse.map .etag) := by
  induction l with
  | nil => simpa using h
  | cons a l ih =>
    have := Nested.element a ih
    simpa [List.append_assoc] using this

/-- The tokens made so far are nested, apart from a paragraph that is still open. -/
def SoFar (p : Parser) : Prop :=
  ∃ A B, Nested A ∧ Nested B ∧ p.tokens = A ++ (if p.popen then .stag .p :: B else B)

theorem soFar_of {p q : Parser} (h : SoFar p) (ht : q.tokens = p.tokens) (hp : q.popen = p.popen) : SoFar q := by
  obtain ⟨A, B, hA, hB, e⟩ := h
  exact ⟨A, B, hA, hB, by rw [ht, hp, e]⟩

theorem soFar_add {p : Parser} {x : List Token} (h : SoFar p) (hx : Nested x) {q : Parser}
    (ht : q.tokens = p.tokens ++ x) (hp : q.popen = p.popen) : SoFar q := by
  obtain ⟨A, B, hA, hB, e⟩ := h
  refine ⟨A, B ++ x, hA, .append hB hx, ?_⟩
  rw [ht, hp, e]
  split <;> simp

theorem soFar_endString {p : Parser} (h : SoFar p) : SoFar p.endString := by
  unfold Parser.endString
  split
  · exact h
  · exact soFar_add h (nested_wrap p.formatTags (.text p.chars)) (by simp) rfl

theorem soFar_stateChanged {p : Parser} (h : SoFar p) : SoFar p.stateChanged := by
  unfold Parser.stateChanged
  split
  · exact soFar_of (soFar_endString h) rfl rfl
  · exact h

/-- What a command can do. -/
theorem handle_cases {p q : Parser} {w : Str} {prm : Option Int} (hr : handle p w prm = .ok q) :
    q = p ∨ (w = "uc".toList ∧ q = { p with state := { p.state with uc := prm } }) ∨
    (∃ c n, p.state.uc = some n ∧ q = { p with chars := p.chars ++ [c] }.consume n) ∨
    q = { p with state := { p.state with ignoreGroup := true } } ∨ (∃ f, q = p.setFormat f) ∨
    q = { p.endString with
      tokens := p.endString.tokens ++ (if p.endString.popen then [.etag .p] else []) ++ [.stag .p], popen := true } ∨
    q = { p.endString with tokens := p.endString.tokens ++ [.br] } ∨ ∃ c, q = { p with chars := p.chars ++ [c] } := by
  unfold handle at hr
  by_cases h0 : w.any (fun c => c.toNat ≥ 128) = true
  · rw [if_pos h0] at hr; cases hr
  rw [if_neg h0] at hr
  by_cases h1 : w = "uc".toList
  · rw [if_pos h1] at hr; cases Except.ok.inj hr; exact .inr (.inl ⟨h1, rfl⟩)
  rw [if_neg h1] at hr
  by_cases h2 : w = "u".toList
  · rw [if_pos h2] at hr
    by_cases hi : p.state.ignoreGroup = true
    · rw [if_pos hi] at hr; cases Except.ok.inj hr; exact .inl rfl
    · rw [if_neg hi] at hr
      obtain ⟨c, hc, hr⟩ := bind_ok hr
      cases hu : p.state.uc with
      | none => rw [hu] at hr; cases hr
      | some n => rw [hu] at hr; cases Except.ok.inj hr; exact .inr (.inr (.inl ⟨c, n, rfl, rfl⟩))
  rw [if_neg h2] at hr
  by_cases h3 : w = "fonttbl".toList
  · rw [if_pos h3] at hr; cases Except.ok.inj hr; exact .inr (.inr (.inr (.inl rfl)))
  rw [if_neg h3] at hr
  by_cases h4 : w = "plain".toList
  · rw [if_pos h4] at hr; cases Except.ok.inj hr; exact .inr (.inr (.inr (.inr (.inl ⟨_, rfl⟩))))
  rw [if_neg h4] at hr
  by_cases h5 : w = "par".toList
  · rw [if_pos h5] at hr; cases Except.ok.inj hr; exact .inr (.inr (.inr (.inr (.inr (.inl rfl)))))
  rw [if_neg h5] at hr
  by_cases h6 : w = "line".toList
  · rw [if_pos h6] at hr; cases Except.ok.inj hr; exact .inr (.inr (.inr (.inr (.inr (.inr (.inl rfl))))))
  rw [if_neg h6] at hr
  by_cases h7 : w = "b".toList
  · rw [if_pos h7] at hr; cases Except.ok.inj hr; exact .inr (.inr (.inr (.inr (.inl ⟨_, rfl⟩))))
  rw [if_neg h7] at hr
  by_cases h8 : w = "i".toList
  · rw [if_pos h8] at hr; cases Except.ok.inj hr; exact .inr (.inr (.inr (.inr (.inl ⟨_, rfl⟩))))
  rw [if_neg h8] at hr
  by_cases h9 : w = "fs".toList
  · rw [if_pos h9] at hr; cases Except.ok.inj hr; exact .inr (.inr (.inr (.inr (.inl ⟨_, rfl⟩))))
  rw [if_neg h9] at hr
  by_cases h10 : w = "lang".toList
  · rw [if_pos h10] at hr
    cases prm with
    | none => cases hr
    | some _ => cases Except.ok.inj hr; exact .inl rfl
  rw [if_neg h10] at hr
  cases hq : quoteChar w with
  | none => rw [hq] at hr; cases Except.ok.inj hr; exact .inl rfl
  | some c =>
    rw [hq] at hr; cases Except.ok.inj hr; exact .inr (.inr (.inr (.inr (.inr (.inr (.inr ⟨c, rfl⟩))))))

theorem soFar_handle {p q : Parser} {w : Str} {prm : Option Int} (h : SoFar p) (hr : handle p w prm = .ok q) : SoFar q := by
  rcases handle_cases hr with rfl | ⟨_, rfl⟩ | ⟨_, _, _, rfl⟩ | rfl | ⟨_, rfl⟩ | rfl | rfl | ⟨_, rfl⟩
  · exact h
  · exact soFar_of h rfl rfl
  · exact soFar_of h rfl rfl
  · exact soFar_of h rfl rfl
  · exact soFar_stateChanged (soFar_of h rfl rfl)
  · obtain ⟨A, B, hA, hB, e⟩ := soFar_endString h
    by_cases hp : p.endString.popen = true
    · rw [if_pos hp] at e
      refine ⟨A ++ (.stag .p :: B ++ [.etag .p]), [], .append hA (.element _ hB), .nil, ?_⟩
      simp [e, hp]
    · rw [if_neg hp] at e
      refine ⟨A ++ B, [], .append hA hB, .nil, ?_⟩
      simp [e, hp]
  · exact soFar_add (soFar_endString h) .br rfl rfl
  · exact soFar_of h rfl rfl

theorem parseLetters_fields (T : Tables) (p : Parser) :
    ∃ n : Int, (parseLetters T p).2 = p.consume n := by
  fun_induction parseLetters T p with
  | case1 p h => exact ⟨0, (consume_zero p).symm⟩
  | case2 p c h ha r ih =>
    obtain ⟨n, hn⟩ := ih
    exact ⟨1 + n, by rw [← consume_consume]; exact hn⟩
  | case3 p c h ha => exact ⟨0, (consume_zero p).symm⟩

theorem parseDigits_fields (T : Tables) (p : Parser) :
    ∃ n : Int, (parseDigits T p).2 = p.consume n := by
  fun_induction parseDigits T p with
  | case1 p h => exact ⟨0, (consume_zero p).symm⟩
  | case2 p c h ha r ih =>
    obtain ⟨n, hn⟩ := ih
    exact ⟨1 + n, by rw [← consume_consume]; exact hn⟩
  | case3 p c h ha => exact ⟨0, (consume_zero p).symm⟩

theorem parseControlWord_fields (T : Tables) (p q : Parser) (w : Str) (prm : Option Int)
    (h : parseControlWord T p = .ok (w, prm, q)) : ∃ n : Int, q = p.consume n := by
  obtain ⟨n, hn⟩ := parseLetters_fields T p
  unfold parseControlWord at h
  dsimp only at h
  rw [hn] at h
  split at h
  · cases Except.ok.inj h
    exact ⟨n + 1, consume_consume ..⟩
  split at h
  · obtain ⟨x, hx, h⟩ := bind_ok h
    cases Except.ok.inj h
    unfold parseNumber at hx
    dsimp only at hx
    obtain ⟨m, hm⟩ := parseDigits_fields T (if (p.consume n).c = some '-' then (p.consume n).consume 1 else p.consume n)
    generalize hg : parseDigits T (if (p.consume n).c = some '-' then (p.consume n).consume 1 else p.consume n) = g at *
    by_cases hgn : g.1 = []
    · rw [if_pos hgn] at hx; cases hx
    · rw [if_neg hgn] at hx
      obtain ⟨y, hy, hx⟩ := bind_ok hx
      cases Except.ok.inj hx
      have : ∃ k : Int, g.2 = p.consume k := by
        rw [hm]
        split
        · exact ⟨n + (1 + m), by rw [consume_consume, consume_consume]⟩
        · exact ⟨n + m, by rw [consume_consume]⟩
      obtain ⟨k, hk⟩ := this
      dsimp only
      rw [hk]
      unfold skipSpace
      split
      · exact ⟨k + 1, consume_consume ..⟩
      · exact ⟨k, rfl⟩
  · cases Except.ok.inj h; exact ⟨n, rfl⟩

theorem soFar_step {T : Tables} {p q : Parser} {c : Char} (h : SoFar p) (hr : step T p c = .ok q) : SoFar q := by
  unfold step at hr
  split at hr
  · dsimp only at hr
    split at hr
    · cases hr
    · split at hr
      · obtain ⟨⟨w, prm, v⟩, hv, hr⟩ := bind_ok hr
        obtain ⟨n, rfl⟩ := parseControlWord_fields _ _ _ _ _ hv
        exact soFar_handle (p := (p.consume 1).consume n) (soFar_of h rfl rfl) hr
      · cases Except.ok.inj hr; exact soFar_of h rfl rfl
  split at hr
  · cases Except.ok.inj hr; exact soFar_of h rfl rfl
  split at hr
  · split at hr
    · cases Except.ok.inj hr; exact soFar_stateChanged (soFar_of h rfl rfl)
    · cases hr
  · cases Except.ok.inj hr; exact soFar_of h rfl rfl

theorem nested_finish {p : Parser} (h : SoFar p) : Nested (finish p) := by
  obtain ⟨A, B, hA, hB, e⟩ := soFar_endString h
  unfold finish
  rw [e, (endString_fields p).2.2.2.2]
  split
  · rw [List.append_assoc]
    exact .append hA (.element _ hB)
  · rw [List.append_nil]
    exact .append hA hB

theorem nested_loop {T : Tables} {n : Nat} {p : Parser} {ts : List Token} (h : SoFar p)
    (hr : loop T n p = some (.ok ts)) : Nested ts := by
  induction n generalizing p with
  | zero => cases hr
  | succ n ih =>
    unfold loop at hr
    split at hr
    · cases Except.ok.inj (Option.some.inj hr)
      exact nested_finish h
    · rename_i c hc
      cases hq : step T p c with
      | error e => rw [hq] at hr; cases hr
      | ok q => rw [hq] at hr; exact ih (soFar_step h hq) hr

/-- **C23** (second half).  Whatever the input: when the tokenizer finishes with tokens, their start and end tags are
properly nested. -/
theorem rtf_tags_nested (T : Tables) (n : Nat) (input : Str) (ts : List Token)
    (h : tokenize T n input = some (.ok ts)) : Nested ts :=
  nested_loop ⟨[], [], .nil, .nil, rfl⟩ h

/-- No characters outside ASCII are letters or digits. -/
def asciiTables : Tables := ⟨fun _ => false, fun _ => false, fun _ => none⟩

set_option maxRecDepth 4000 in
example : tokenize asciiTables 60 "{\\b x\\i y\\par z} w".toList = some (.ok
    [.stag .b, .text "x".toList, .etag .b, .stag .b, .stag .i, .text "y".toList, .etag .i, .etag .b, .stag .p,
      .stag .i, .stag .b, .text "z".toList, .etag .b, .etag .i, .text " w".toList, .etag .p]) := by
  decide +kernel

/-! ## The tokenizer finishes (C23) -/

/-- The skip counts are not negative. -/
def CountOk (s : RState) : Prop := ∀ n, s.uc = some n → 0 ≤ n

/-- What holds while the tokenizer runs on a text without `\uc-`. -/
structure Advancing (input : Str) (p : Parser) : Prop where
  input : p.input = input
  pos : 0 ≤ p.pos
  state : CountOk p.state
  stack : ∀ s ∈ p.stack, CountOk s

theorem advancing_of {input : Str} {p q : Parser} (h : Advancing input p) (hi : q.input = p.input) (hp : p.pos ≤ q.pos)
    (hs : q.state.uc = p.state.uc) (hk : q.stack = p.stack) : Advancing input q :=
  ⟨hi.trans h.input, Int.le_trans h.pos hp, by intro n hn; rw [hs] at hn; exact h.state n hn, by rw [hk]; exact h.stack⟩

theorem stateChanged_uc (p : Parser) : p.stateChanged.state.uc = p.state.uc := by
  rw [(stateChanged_fields p).2.2.1]

theorem advancing_stateChanged {input : Str} {p : Parser} (h : Advancing input p) : Advancing input p.stateChanged := by
  obtain ⟨h1, h2, h3, h4, h5⟩ := stateChanged_fields p
  exact advancing_of h h1 (by rw [h2]; exact Int.le_refl _) (by rw [h3]) h4

theorem advancing_handle {input : Str} {p q : Parser} {w : Str} {prm : Option Int} (h : Advancing input p)
    (hu : w = "uc".toList → ∀ n, prm = some n → 0 ≤ n) (hr : handle p w prm = .ok q) :
    Advancing input q ∧ p.pos ≤ q.pos := by
  have fmt : ∀ f : Format, Advancing input (p.setFormat f) ∧ (p.setFormat f).pos = p.pos := by
    intro f
    exact ⟨advancing_stateChanged (advancing_of h rfl (Int.le_refl _) rfl rfl), (stateChanged_fields _).2.1⟩
  obtain ⟨e1, e2, e3, e4, e5⟩ := endString_fields p
  rcases handle_cases hr with rfl | ⟨hw, rfl⟩ | ⟨_, n, hn, rfl⟩ | rfl | ⟨f, rfl⟩ | rfl | rfl | ⟨_, rfl⟩
  · exact ⟨h, Int.le_refl _⟩
  · exact ⟨⟨h.input, h.pos, fun n hn => hu hw n hn, h.stack⟩, Int.le_refl _⟩
  · have h0 := h.state n hn
    exact ⟨advancing_of h rfl (by simp only [Parser.consume]; omega) rfl rfl, by simp only [Parser.consume]; omega⟩
  · exact ⟨advancing_of h rfl (Int.le_refl _) rfl rfl, Int.le_refl _⟩
  · exact ⟨(fmt f).1, by rw [(fmt f).2]; exact Int.le_refl _⟩
  · exact ⟨advancing_of h e1 (by dsimp only; rw [e2]; exact Int.le_refl _) (by dsimp only; rw [e3]) e4, by dsimp only; rw [e2]; exact Int.le_refl _⟩
  · exact ⟨advancing_of h e1 (by dsimp only; rw [e2]; exact Int.le_refl _) (by dsimp only; rw [e3]) e4, by dsimp only; rw [e2]; exact Int.le_refl _⟩
  · exact ⟨advancing_of h rfl (Int.le_refl _) rfl rfl, Int.le_refl _⟩

/-- No part of the text reads `\uc-`. -/
def NoNegativeSkip (s : Str) : Prop := ∀ a b, s ≠ a ++ "\\uc-".toList ++ b

theorem at_of_c {p : Parser} {c : Char} (h : 0 ≤ p.pos) (hc : p.c = some c) :
    ∃ s, At p (c :: s) ∧ p.input = p.input.take p.pos.toNat ++ c :: s := by
  have hl := pos_lt_of_c hc
  have ha := at_exists h (Int.le_of_lt hl)
  have := ha.c
  rw [hc] at this
  cases hd : p.input.drop p.pos.toNat with
  | nil => rw [hd] at this; simp at this
  | cons x y =>
    rw [hd] at this ha
    cases Option.some.inj this
    exact ⟨y, ha, by rw [← hd]; simp⟩

theorem advancing_step {input : Str} (hin : NoNegativeSkip input) {T : Tables} {p q : Parser} {c : Char}
    (h : Advancing input p) (hc : p.c = some c) (hr : step T p c = .ok q) : Advancing input q ∧ p.pos < q.pos := by
  obtain ⟨s, hat, hsp⟩ := at_of_c h.pos hc
  have hcons : Advancing input (p.consume 1) := advancing_of h rfl (by simp only [Parser.consume]; omega) rfl rfl
  unfold step at hr
  split at hr
  · rename_i hbs
    dsimp only at hr
    split at hr
    · cases hr
    · split at hr
      · obtain ⟨⟨w, prm, v⟩, hv, hr⟩ := bind_ok hr
        obtain ⟨n, s', hs', hwn, hns, hv', ha, hb, hneg⟩ :=
          parseControlWord_spec T (p.consume 1) s (At.consume_one hat) w prm v hv
        subst hv'
        have := advancing_handle (q := q) (w := w) (prm := prm) (p := (p.consume 1).consume n) (input := input)
          (advancing_of hcons rfl (by simp only [Parser.consume]; omega) rfl rfl) (by
            intro hw k hk
            apply Decidable.byContradiction
            intro hlt
            have hd := hneg k hk (by omega)
            cases s' with
            | nil => simp at hd
            | cons x y =>
              cases Option.some.inj hd
              apply hin (p.input.take p.pos.toNat) y
              rw [← h.input]
              refine hsp.trans ?_
              rw [hs', hw, hbs]
              simp) hr
        refine ⟨this.1, ?_⟩
        have := this.2
        simp only [Parser.consume] at this
        omega
      · cases Except.ok.inj hr
        exact ⟨advancing_of hcons rfl (by simp only [Parser.consume]; omega) rfl rfl, by simp only [Parser.consume]; omega⟩
  split at hr
  · cases Except.ok.inj hr
    refine ⟨⟨h.input, hcons.pos, fun n hn => h.state n hn, ?_⟩, by simp only [Parser.consume]; omega⟩
    intro s hs
    rcases List.mem_cons.mp hs with rfl | hs
    · exact h.state
    · exact h.stack s hs
  split at hr
  · split at hr
    · rename_i s0 stack hst
      cases Except.ok.inj hr
      refine ⟨advancing_stateChanged ⟨h.input, hcons.pos, ?_, ?_⟩, ?_⟩
      · exact h.stack s0 (by rw [hst]; simp)
      · intro t ht; exact h.stack t (by rw [hst]; simp [ht])
      · rw [(stateChanged_fields _).2.1]; simp only [Parser.consume]; omega
    · cases hr
  · cases Except.ok.inj hr
    exact ⟨advancing_of h rfl (by simp only [Parser.consume]; omega) rfl rfl, by simp only [Parser.consume]; omega⟩

theorem loop_ends {input : Str} (hin : NoNegativeSkip input) (T : Tables) (n : Nat) (p : Parser) (h : Advancing input p)
    (hn : input.length - p.pos < n) (h0 : 0 < n) : ∃ r, loop T n p = some r := by
  induction n generalizing p with
  | zero => omega
  | succ n ih =>
    unfold loop
    cases hc : p.c with
    | none => exact ⟨_, rfl⟩
    | some c =>
      dsimp only
      cases hq : step T p c with
      | error e => exact ⟨_, rfl⟩
      | ok q =>
        obtain ⟨h1, h2⟩ := advancing_step hin h hc hq
        have hl := pos_lt_of_c hc
        rw [h.input] at hl
        exact ih q h1 (by omega) (by omega)

/-- **C23** (first half, in part).  On a text in which `\uc` is nowhere followed by a minus sign the tokenizer
finishes, after at most one round for each character and one more. -/
theorem rtf_finishes_partial (T : Tables) (input : Str) (h : NoNegativeSkip input) :
    ∃ r, tokenize T (input.length + 1) input = some r :=
  loop_ends h T _ (start input) ⟨rfl, Int.le_refl _, by intro n hn; cases hn; decide, by simp [start]⟩
    (by simp only [start]; omega) (by omega)

example : NoNegativeSkip "{\\uc1\\u8217 ?}".toList := by
  intro a b h
  have hm : '-' ∈ "{\\uc1\\u8217 ?}".toList := by rw [h]; simp
  revert hm
  decide

/-- The text with which the tokenizer never finishes. -/
def endless : Str := ['\\', 'u', 'c', '-', '6', '\\', 'u', '6', '5', ' ']

/-- The parser after the first command, whatever it has collected. -/
def endlessState (cs : Str) : Parser :=
  ⟨endless, 5, [], cs, [], ⟨some (-6), false, .reset⟩, [], false⟩

theorem endless_word (T : Tables) (cs : Str) :
    step T (endlessState cs) '\\' = .ok { endlessState (cs ++ ['A']) with pos := 4 } := by
  have h1 : At ((endlessState cs).consume 1) (['u'] ++ ['6', '5'] ++ [' ']) := by
    refine ⟨by simp [Parser.consume, endlessState], by simp [Parser.consume, endlessState, endless], ?_⟩
    show endless.drop 6 = _
    decide
  obtain ⟨n, hn, hat⟩ := parseControlWord_run T _ ['u'] ['6', '5'] [] [' '] (some 65)
    (by intro c hc; simp at hc; subst hc; exact .inl (by decide)) (.plain (.mk (by simp) (by
      intro c hc; simp at hc; rcases hc with rfl | rfl <;> exact ⟨by decide, by decide⟩))) (.space []) h1
  have hn4 : n = 4 := by
    obtain ⟨_, a, b⟩ := hat
    have e : (((endlessState cs).consume 1).consume n).input.length = 10 := rfl
    have c : (((endlessState cs).consume 1).consume n).pos = 6 + (n : Int) := rfl
    rw [c, e] at a
    have := congrArg List.length b
    rw [List.length_drop, e, c] at this
    simp only [List.length_nil] at this
    omega
  subst hn4
  unfold step
  rw [if_pos rfl]
  have hc := h1.c
  dsimp only
  rw [hc]
  simp only [show (['u'] ++ ['6', '5'] ++ [' ']).head? = some 'u' from rfl]
  rw [if_pos (by rfl), hn]
  rfl

theorem endless_loop (T : Tables) (n : Nat) (cs : Str) : loop T n (endlessState cs) = none := by
  induction n using Nat.strongRecOn generalizing cs with
  | ind n ih =>
    match n with
    | 0 => rfl
    | 1 =>
      unfold loop
      rw [show (endlessState cs).c = some '\\' from rfl]
      dsimp only
      rw [endless_word]
      rfl
    | n + 2 =>
      unfold loop
      rw [show (endlessState cs).c = some '\\' from rfl]
      dsimp only
      rw [endless_word]
      dsimp only
      unfold loop
      show loop T n (endlessState (cs ++ ['A'] ++ ['6'])) = none
      exact ih n (by omega) _

theorem endless_first (T : Tables) : step T (start endless) '\\' = .ok (endlessState []) := by
  have h1 : At ((start endless).consume 1) (['u', 'c'] ++ ['-', '6'] ++ ['\\', 'u', '6', '5', ' ']) := by
    refine ⟨by decide, by decide, by decide⟩
  obtain ⟨n, hn, hat⟩ := parseControlWord_run T _ ['u', 'c'] ['-', '6'] _ _ (some (-6))
    (by intro c hc; simp at hc; rcases hc with rfl | rfl <;> exact .inl (by decide)) (.minus (n := 6) (.mk (by simp) (by
      intro c hc; simp at hc; subst hc; exact ⟨by decide, by decide⟩)))
    (.other (c := '\\') ['u', '6', '5', ' '] (by decide) (by unfold Spec.Rtf.Letter; decide) (by unfold Spec.IsDigit; decide) (by decide)
      (by decide)) h1
  have hn4 : n = 4 := by
    obtain ⟨_, a, b⟩ := hat
    have e : (((start endless).consume 1).consume n).input.length = 10 := rfl
    have c : (((start endless).consume 1).consume n).pos = 1 + (n : Int) := by show 0 + 1 + (n : Int) = _; omega
    rw [c, e] at a
    have := congrArg List.length b
    rw [List.length_drop, e, c] at this
    simp only [List.length_cons, List.length_nil] at this
    omega
  subst hn4
  unfold step
  rw [if_pos rfl]
  have hc := h1.c
  dsimp only
  rw [hc]
  simp only [show (['u', 'c'] ++ ['-', '6'] ++ ['\\', 'u', '6', '5', ' ']).head? = some 'u' from rfl]
  rw [if_pos (by rfl), hn]
  rfl

/-- **C23** (first half, refuted).  After `\uc-6` the command `\u65` makes the tokenizer go back and read the same
command again, for ever. -/
theorem rtf_never_finishes (T : Tables) (n : Nat) : tokenize T n "\\uc-6\\u65 ".toList = none := by
  show loop T n (start endless) = none
  cases n with
  | zero => rfl
  | succ n =>
    unfold loop
    rw [show (start endless).c = some '\\' from rfl]
    dsimp only
    rw [endless_first]
    exact endless_loop T n []

/-! ## Errors are reported as such (C75) -/

theorem ascii_digit (T : Tables) {c : Char} (h : c.toNat < 128) (hd : T.isDigit c = true) : Spec.IsDigit c := by
  unfold Tables.isDigit at hd
  rw [if_pos h] at hd
  have : 48 ≤ c.toNat ∧ c.toNat ≤ 57 := by simpa [Py.isDigit] using hd
  exact this

theorem ascii_alpha (T : Tables) {c : Char} (h : c.toNat < 128) (hd : T.isAlpha c = false) : ¬ Spec.Rtf.Letter c := by
  intro hl
  rw [(letter_ascii T hl).1] at hd
  cases hd

/-- In ASCII text only missing digits are an error in a control word. -/
theorem parseControlWord_error (T : Tables) (p : Parser) (s : Str) (h : At p s) (hs : ∀ c ∈ s, c.toNat < 128) (e : Err)
    (hr : parseControlWord T p = .error e) : e = .rtfException := by
  obtain ⟨w, s', rfl, hl, -, -⟩ := parseLetters_spec T _ p s h rfl
  have h' : At (p.consume w.length) s' := At.consume h
  unfold parseControlWord at hr
  rw [hl] at hr
  dsimp only at hr
  by_cases hc : (p.consume w.length).c = some ' '
  · rw [if_pos hc] at hr; cases hr
  rw [if_neg hc] at hr
  by_cases hp : paramFollows T (p.consume w.length) = true
  · rw [if_pos hp] at hr
    have num : ∀ v y, At v y → (∀ c ∈ y, c.toNat < 128) → ∃ d, parseDigits T v = (d, v.consume d.length) ∧
        ∀ c ∈ d, Spec.IsDigit c := by
      intro v y hv hy
      obtain ⟨d, y', rfl, hd, hd'⟩ := parseDigits_spec T v y hv
      exact ⟨d, hd, fun c hc => ascii_digit T (hy c (by simp [hc])) (hd' c hc)⟩
    unfold parseNumber at hr
    dsimp only at hr
    by_cases hm : (p.consume w.length).c = some '-'
    · simp only [if_pos hm] at hr
      rw [h'.c] at hm
      cases s' with
      | nil => cases hm
      | cons x y =>
        obtain ⟨d, hd, hd'⟩ := num _ y (At.consume_one h') (fun c hc => hs c (by simp [hc]))
        rw [hd] at hr
        dsimp only at hr
        by_cases hdn : d = []
        · rw [if_pos hdn] at hr; cases hr; rfl
        · rw [if_neg hdn, intOf_digits T d hd'] at hr; cases hr
    · simp only [if_neg hm] at hr
      obtain ⟨d, hd, hd'⟩ := num _ s' h' (fun c hc => hs c (by simp [hc]))
      rw [hd] at hr
      dsimp only at hr
      by_cases hdn : d = []
      · rw [if_pos hdn] at hr; cases hr; rfl
      · rw [if_neg hdn, intOf_digits T d hd'] at hr; cases hr
  · rw [if_neg hp] at hr; cases hr

/-- A word followed by digits has them as its parameter. -/
theorem parseControlWord_number (T : Tables) (p : Parser) (w d r : Str) (h : At p (w ++ (d ++ r)))
    (hw : ∀ c ∈ w, T.isAlpha c = true) (hd : ∀ c ∈ d, Spec.IsDigit c) (hne : d ≠ [])
    (hr : ∀ c, r.head? = some c → T.isDigit c = false) :
    ∃ q, parseControlWord T p = .ok (w, some (Spec.digitsValue d : Nat), q) := by
  cases d with
  | nil => exact absurd rfl hne
  | cons x y =>
    have hx := digit_ascii T (hd x (by simp))
    have hl := parseLetters_run T w _ p h hw (by intro c hc; cases Option.some.inj hc; exact hx.2.1)
    have hat : At (p.consume w.length) (x :: y ++ r) := At.consume h
    have hc := hat.c
    simp only [List.cons_append, List.head?_cons] at hc
    unfold parseControlWord
    rw [hl]
    dsimp only
    rw [hc, if_neg (by simpa using hx.2.2.2.1)]
    have : paramFollows T (p.consume w.length) = true := by
      unfold paramFollows; rw [hc]; simp [hx.1]
    rw [this, if_pos rfl]
    unfold parseNumber
    have hm : ¬ ((p.consume w.length).c = some '-') := by rw [hc]; simpa using hx.2.2.1
    simp only [if_neg hm]
    rw [parseDigits_run T (x :: y) r _ hat (fun c hc => (digit_ascii T (hd c hc)).1) hr]
    dsimp only
    rw [if_neg (by simp), intOf_digits T _ hd]
    simp [bind, Except.bind]

/-- What can go wrong in a command. -/
theorem handle_error {p : Parser} {w : Str} {prm : Option Int} {e : Err} (hr : handle p w prm = .error e) :
    (∃ c ∈ w, c.toNat ≥ 128) ∨ (w = "u".toList ∧ (p.state.uc = none ∨ unichr prm = .error e)) ∨
      (w = "lang".toList ∧ prm = none) := by
  unfold handle at hr
  by_cases h0 : w.any (fun c => c.toNat ≥ 128) = true
  · rw [List.any_eq_true] at h0
    obtain ⟨c, hc, h⟩ := h0
    exact .inl ⟨c, hc, by simpa using h⟩
  rw [if_neg h0] at hr
  by_cases h1 : w = "uc".toList
  · rw [if_pos h1] at hr; cases hr
  rw [if_neg h1] at hr
  by_cases h2 : w = "u".toList
  · refine .inr (.inl ⟨h2, ?_⟩)
    rw [if_pos h2] at hr
    by_cases hi : p.state.ignoreGroup = true
    · rw [if_pos hi] at hr; cases hr
    · rw [if_neg hi] at hr
      cases hu : p.state.uc with
      | none => exact .inl rfl
      | some n =>
        rw [hu] at hr
        cases hc : unichr prm with
        | ok c => rw [hc] at hr; cases hr
        | error e' => rw [hc] at hr; cases hr; exact .inr rfl
  rw [if_neg h2] at hr
  by_cases h3 : w = "fonttbl".toList
  · rw [if_pos h3] at hr; cases hr
  rw [if_neg h3] at hr
  by_cases h4 : w = "plain".toList
  · rw [if_pos h4] at hr; cases hr
  rw [if_neg h4] at hr
  by_cases h5 : w = "par".toList
  · rw [if_pos h5] at hr; cases hr
  rw [if_neg h5] at hr
  by_cases h6 : w = "line".toList
  · rw [if_pos h6] at hr; cases hr
  rw [if_neg h6] at hr
  by_cases h7 : w = "b".toList
  · rw [if_pos h7] at hr; cases hr
  rw [if_neg h7] at hr
  by_cases h8 : w = "i".toList
  · rw [if_pos h8] at hr; cases hr
  rw [if_neg h8] at hr
  by_cases h9 : w = "fs".toList
  · rw [if_pos h9] at hr; cases hr
  rw [if_neg h9] at hr
  by_cases h10 : w = "lang".toList
  · refine .inr (.inr ⟨h10, ?_⟩)
    rw [if_pos h10] at hr
    cases prm with
    | none => rfl
    | some _ => cases hr
  rw [if_neg h10] at hr
  cases hq : quoteChar w with
  | none => rw [hq] at hr; cases hr
  | some c => rw [hq] at hr; cases hr

/-- The skip counts are known. -/
def CountKnown (p : Parser) : Prop := p.state.uc ≠ none ∧ ∀ s ∈ p.stack, s.uc ≠ none

theorem countKnown_of {p q : Parser} (h : CountKnown p) (hs : q.state.uc = p.state.uc) (hk : q.stack = p.stack) :
    CountKnown q := by
  unfold CountKnown
  rw [hs, hk]; exact h

theorem countKnown_stateChanged {p : Parser} (h : CountKnown p) : CountKnown p.stateChanged :=
  countKnown_of h (by rw [(stateChanged_fields p).2.2.1]) (stateChanged_fields p).2.2.2.1

theorem countKnown_handle {p q : Parser} {w : Str} {prm : Option Int} (h : CountKnown p)
    (hu : w = "uc".toList → prm ≠ none) (hr : handle p w prm = .ok q) : CountKnown q := by
  obtain ⟨e1, e2, e3, e4, e5⟩ := endString_fields p
  rcases handle_cases hr with rfl | ⟨hw, rfl⟩ | ⟨_, n, hn, rfl⟩ | rfl | ⟨f, rfl⟩ | rfl | rfl | ⟨_, rfl⟩
  · exact h
  · exact ⟨hu hw, h.2⟩
  · exact countKnown_of h rfl rfl
  · exact countKnown_of h rfl rfl
  · exact countKnown_stateChanged (countKnown_of h rfl rfl)
  · exact countKnown_of h (by dsimp only; rw [e3]) e4
  · exact countKnown_of h (by dsimp only; rw [e3]) e4
  · exact countKnown_of h rfl rfl

theorem loop_reports {input : Str} (hin : ∀ c ∈ input, c.toNat < 128) (hn : Spec.Rtf.NumbersGiven input)
    (hb : ∀ a, input ≠ a ++ ['\\']) (hneg : NoNegativeSkip input) (T : Tables) (n : Nat) (p : Parser)
    (h : Advancing input p) (hk : CountKnown p) (e : Err) (hr : loop T n p = some (.error e)) : e = .rtfException := by
  induction n generalizing p with
  | zero => cases hr
  | succ n ih =>
    unfold loop at hr
    cases hc : p.c with
    | none => rw [hc] at hr; cases hr
    | some c =>
      rw [hc] at hr
      dsimp only at hr
      obtain ⟨s, hat, hsp⟩ := at_of_c h.pos hc
      rw [h.input] at hsp
      -- a control word has what it needs
      have word : ∀ w prm v, c = '\\' → parseControlWord T (p.consume 1) = .ok (w, prm, v) →
          (∀ x ∈ w, x.toNat < 128) ∧
          (w ∈ ["u", "uc", "lang"].map String.toList → ∃ d : Nat, prm = some (d : Int) ∧ (w = "u".toList → d < 0xD800)) := by
        intro w prm v hbs hv
        obtain ⟨k, s', hs', -, -, -, ha, hb', -⟩ := parseControlWord_spec T (p.consume 1) s (At.consume_one hat) w prm v hv
        have hsub : ∀ x ∈ s, x.toNat < 128 := by
          intro x hx
          apply hin
          rw [hsp]; simp [hx]
        refine ⟨fun x hx => hsub x (by rw [hs']; simp [hx]), ?_⟩
        intro hw
        obtain ⟨d, r, hd, hne, hdig, hr', hu⟩ := hn (input.take p.pos.toNat) w s' (by
          refine hsp.trans ?_
          rw [hs', hbs]; simp) hw (by
            intro x hx
            refine ascii_alpha T (hsub x ?_) (hb' x hx)
            rw [hs']
            cases s' with
            | nil => cases hx
            | cons y z => cases Option.some.inj hx; simp)
        subst hd
        obtain ⟨q, hq⟩ := parseControlWord_number T (p.consume 1) w d r (by rw [← hs']; exact At.consume_one hat) ha hdig
          hne (by
            intro x hx
            cases hxd : T.isDigit x with
            | false => rfl
            | true =>
              refine absurd (ascii_digit T (hsub x ?_) hxd) (hr' x hx)
              rw [hs']
              cases r with
              | nil => cases hx
              | cons y z => cases Option.some.inj hx; simp)
        rw [hq] at hv
        cases Except.ok.inj hv
        exact ⟨_, rfl, hu⟩
      cases hq : step T p c with
      | error e' =>
        rw [hq] at hr
        cases hr
        unfold step at hq
        by_cases hbs : c = '\\'
        · rw [if_pos hbs] at hq
          dsimp only at hq
          cases hc' : (p.consume 1).c with
          | none =>
            rw [(At.consume_one hat).c] at hc'
            cases s with
            | nil => exact absurd (by rw [← hbs]; exact hsp) (hb _)
            | cons _ _ => cases hc'
          | some d =>
            rw [hc'] at hq
            dsimp only at hq
            by_cases hal : T.isAlpha d = true
            · rw [if_pos hal] at hq
              cases hv : parseControlWord T (p.consume 1) with
              | error e'' =>
                rw [hv] at hq; cases hq
                refine parseControlWord_error T _ s (At.consume_one hat) ?_ _ hv
                intro x hx
                apply hin
                rw [hsp]; simp [hx]
              | ok x =>
                obtain ⟨w, prm, v⟩ := x
                rw [hv] at hq
                obtain ⟨hw1, hw2⟩ := word w prm v hbs hv
                obtain ⟨k, rfl⟩ := parseControlWord_fields _ _ _ _ _ hv
                have hq : handle ((p.consume 1).consume k) w prm = .error e := hq
                rcases handle_error hq with ⟨x, hx, hx'⟩ | ⟨hw, hno | huc⟩ | ⟨hw, hno⟩
                · have := hw1 x hx
                  omega
                · exact absurd hno hk.1
                · obtain ⟨m, rfl, hm⟩ := hw2 (by rw [hw]; simp)
                  have := hm hw
                  unfold unichr at huc
                  dsimp only at huc
                  rw [if_neg (by omega), if_neg (by omega)] at huc
                  cases huc
                · obtain ⟨m, rfl, hm⟩ := hw2 (by rw [hw]; simp)
                  cases hno
            · rw [if_neg hal] at hq; cases hq
        rw [if_neg hbs] at hq
        by_cases ho : c = '{'
        · rw [if_pos ho] at hq; cases hq
        rw [if_neg ho] at hq
        by_cases hcl : c = '}'
        · rw [if_pos hcl] at hq
          cases hst : p.stack with
          | nil => rw [hst] at hq; cases hq; rfl
          | cons _ _ => rw [hst] at hq; cases hq
        · rw [if_neg hcl] at hq; cases hq
      | ok q =>
        rw [hq] at hr
        refine ih q (advancing_step hneg h hc hq).1 ?_ hr
        unfold step at hq
        by_cases hbs : c = '\\'
        · rw [if_pos hbs] at hq
          dsimp only at hq
          cases hc' : (p.consume 1).c with
          | none => rw [hc'] at hq; cases hq
          | some d =>
            rw [hc'] at hq
            dsimp only at hq
            by_cases hal : T.isAlpha d = true
            · rw [if_pos hal] at hq
              obtain ⟨⟨w, prm, v⟩, hv, hq⟩ := bind_ok hq
              obtain ⟨hw1, hw2⟩ := word w prm v hbs hv
              obtain ⟨k, rfl⟩ := parseControlWord_fields _ _ _ _ _ hv
              refine countKnown_handle (p := (p.consume 1).consume k) (w := w) (prm := prm) (countKnown_of hk rfl rfl) ?_ hq
              intro hw
              obtain ⟨m, hm, -⟩ := hw2 (by rw [hw]; simp)
              rw [hm]; simp
            · rw [if_neg hal] at hq; cases Except.ok.inj hq; exact countKnown_of hk rfl rfl
        rw [if_neg hbs] at hq
        by_cases ho : c = '{'
        · rw [if_pos ho] at hq; cases Except.ok.inj hq
          refine ⟨hk.1, ?_⟩
          intro x hx
          rcases List.mem_cons.mp hx with rfl | hx
          · exact hk.1
          · exact hk.2 x hx
        rw [if_neg ho] at hq
        by_cases hcl : c = '}'
        · rw [if_pos hcl] at hq
          cases hst : p.stack with
          | nil => rw [hst] at hq; cases hq
          | cons a b =>
            rw [hst] at hq; cases Except.ok.inj hq
            refine countKnown_stateChanged ⟨hk.2 a (by rw [hst]; simp), ?_⟩
            intro x hx
            exact hk.2 x (by rw [hst]; simp [show x ∈ b from hx])
        · rw [if_neg hcl] at hq; cases Except.ok.inj hq; exact countKnown_of hk rfl rfl

/-- **C75** (in part).  An ASCII text whose `\u`, `\uc` and `\lang` commands have their numbers, below U+D800 in the
case of `\u`, and which does not end in a backslash is converted, or the conversion ends with the error that callers
expect. -/
theorem rtf_reported_partial (T : Tables) (input : Str) (hin : ∀ c ∈ input, c.toNat < 128)
    (hn : Spec.Rtf.NumbersGiven input) (hb : ∀ a, input ≠ a ++ ['\\']) :
    (∃ ts, tokenize T (input.length + 1) input = some (.ok ts)) ∨
      tokenize T (input.length + 1) input = some (.error .rtfException) := by
  have hneg : NoNegativeSkip input := by
    intro a b hab
    obtain ⟨d, r, hd, hne, hdig, -⟩ := hn a "uc".toList ('-' :: b) (by rw [hab]; simp) (by simp) (by
      intro c hc; cases Option.some.inj hc; unfold Spec.Rtf.Letter; decide)
    cases d with
    | nil => exact hne rfl
    | cons x y =>
      cases hd
      exact absurd (hdig '-' (by simp)) (by unfold Spec.IsDigit; decide)
  obtain ⟨r, hr⟩ := rtf_finishes_partial T input hneg
  cases r with
  | ok ts => exact .inl ⟨ts, hr⟩
  | error e =>
    right
    rw [hr, loop_reports hin hn hb hneg T _ (start input)
      ⟨rfl, Int.le_refl _, by intro n hn; cases hn; decide, by simp [start]⟩ ⟨by simp [start, RState.init], by simp [start]⟩
      e hr]

/-- Such a text. -/
example : (∀ c ∈ "{\\b x}}".toList, c.toNat < 128) ∧ Spec.Rtf.NumbersGiven "{\\b x}}".toList ∧
    (∀ a, "{\\b x}}".toList ≠ a ++ ['\\']) ∧
    tokenize asciiTables 9 "{\\b x}}".toList = some (.error .rtfException) := by
  refine ⟨by decide, ?_, ?_, by decide +kernel⟩
  · intro a w b h hw
    have hu : w = "u".toList ∨ w = "uc".toList ∨ w = "lang".toList := by simpa using hw
    have hm : 'u' ∈ "{\\b x}}".toList ∨ 'l' ∈ "{\\b x}}".toList := by
      rw [h]
      rcases hu with rfl | rfl | rfl
      · left; simp
      · left; simp
      · right; simp
    exact absurd hm (by decide)
  · intro a h
    have := congrArg List.getLast? h
    rw [List.getLast?_append] at this
    exact absurd (this.trans (b := some '\\') rfl) (by decide)

/-- **C75** (refuted).  A negative number, as RTF writes characters above U+7FFF, a missing number or a final backslash
raises an error that the callers do not expect. -/
theorem rtf_not_reported : tokenize asciiTables 9 "\\u-1000 ?".toList = some (.error .valueError) ∧
    tokenize asciiTables 9 "\\lang x".toList = some (.error .typeError) ∧
    tokenize asciiTables 9 "\\uc \\u65 A".toList = some (.error .typeError) ∧
    tokenize asciiTables 9 "x\\".toList = some (.error .typeError) := by
  refine ⟨?_, ?_, ?_, ?_⟩ <;> decide +kernel

end Verif.Props
