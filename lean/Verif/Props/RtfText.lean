import Verif.Props.RtfEnds

/-!
# RTF: text and formatting survive (C74)
-/

set_option linter.unusedVariables false
set_option linter.unusedSimpArgs false

namespace Verif.Props

open Verif Verif.Rtf
open Verif.Spec.Rtf

/-! ## What the tokens show -/

/-- The look that the parser state stands for. -/
def lookOf (f : Format) : Look :=
  ⟨decide (f.bold ≠ 0), decide (f.italic ≠ 0), if f.size > 0 then .big else if f.size < 0 then .small else .normal⟩

theorem lookIn_tags (f : Format) : lookIn f.tags = lookOf f ∧ Tag.p ∉ f.tags := by
  obtain ⟨b, i, s⟩ := f
  unfold Format.tags lookIn lookOf
  by_cases hb : b = 0 <;> by_cases hi : i = 0 <;> by_cases h1 : s > 0 <;> by_cases h2 : s < 0 <;>
    simp [hb, hi, h1, h2]

theorem lookIn_congr {l m : List Tag} (h : ∀ t, t ≠ Tag.p → (t ∈ l ↔ t ∈ m)) : lookIn l = lookIn m := by
  unfold lookIn
  simp only [h .b (by decide), h .i (by decide), h .big (by decide), h .small (by decide)]

theorem lookIn_reverse (l : List Tag) : lookIn l.reverse = lookIn l := lookIn_congr (fun t _ => by simp)

theorem tags_nil {l : List Tag} (h : lookIn l = .plain) (hp : Tag.p ∉ l) : l = [] := by
  cases l with
  | nil => rfl
  | cons t l =>
    exfalso
    unfold lookIn Look.plain at h
    injection h with h1 h2 h3
    cases t with
    | b => simp at h1
    | i => simp at h2
    | big => simp at h3
    | small =>
      by_cases hb : Tag.big ∈ Tag.small :: l
      · rw [if_pos hb] at h3; cases h3
      · rw [if_neg hb, if_pos (by simp)] at h3; cases h3
    | p => exact hp (by simp)

theorem shown_open (l : List Tag) (o : List Tag) (r : List Token) (hp : Tag.p ∉ l) :
    shown o (l.map .stag ++ r) = shown (l.reverse ++ o) r := by
  induction l generalizing o with
  | nil => rfl
  | cons t l ih =>
    rw [List.map_cons, List.cons_append, shown, if_neg (by rintro rfl; exact hp (by simp)), List.nil_append,
      ih (t :: o) (fun h => hp (by simp [h]))]
    simp

theorem shown_close (l : List Tag) (o : List Tag) (r : List Token) :
    shown (l ++ o) (l.map .etag ++ r) = shown o r := by
  induction l with
  | nil => rfl
  | cons t l ih =>
    rw [List.map_cons, List.cons_append, List.cons_append, shown, List.erase_cons_head]
    exact ih

/-- The elements that stay open: a paragraph. -/
def openTags (p : Parser) : List Tag := if p.popen then [.p] else []

/-- The tokens and collected characters show `S`. -/
def Shows (p : Parser) (S : List Sign) : Prop :=
  ∃ S0, S = S0 ++ p.chars.map (.char · (lookIn p.formatTags)) ∧ Tag.p ∉ p.formatTags ∧
    ∀ r, shown [] (p.tokens ++ r) = S0 ++ shown (openTags p) r

theorem shows_of {p q : Parser} {S : List Sign} (h : Shows p S) (hc : q.chars = p.chars) (hf : q.formatTags = p.formatTags)
    (ht : q.tokens = p.tokens) (hp : q.popen = p.popen) : Shows q S := by
  unfold Shows openTags at *
  rw [hc, hf, ht, hp]; exact h

theorem shows_endString {p : Parser} {S : List Sign} (h : Shows p S) :
    Shows p.endString S ∧ p.endString.chars = [] ∧ lookIn p.endString.formatTags = lookIn p.formatTags := by
  obtain ⟨S0, hS, hp, ht⟩ := h
  unfold Parser.endString
  by_cases hc : p.chars = []
  · rw [if_pos hc]
    exact ⟨⟨S0, hS, hp, ht⟩, hc, rfl⟩
  · rw [if_neg hc]
    refine ⟨⟨S, by simp, by simpa using hp, ?_⟩, rfl, lookIn_reverse _⟩
    intro r
    have hl : lookIn (p.formatTags.reverse ++ openTags p) = lookIn p.formatTags := by
      apply lookIn_congr
      intro t ht
      unfold openTags
      split
      · simp [ht]
      · simp
    simp only [List.append_assoc]
    rw [ht, shown_open _ _ _ hp, List.singleton_append, shown, shown_close, hl, hS]
    simp [openTags]

theorem shows_stateChanged {p : Parser} {S : List Sign} (h : Shows p S) :
    Shows p.stateChanged S ∧ lookIn p.stateChanged.formatTags = lookOf p.state.format := by
  unfold Parser.stateChanged
  by_cases hf : p.state.format.tags = p.formatTags
  · rw [if_neg (by simpa using hf)]
    exact ⟨h, by rw [← hf]; exact (lookIn_tags _).1⟩
  · rw [if_pos hf]
    refine ⟨?_, (lookIn_tags _).1⟩
    obtain ⟨⟨S0, hS, hp, ht⟩, hc, -⟩ := shows_endString h
    refine ⟨S0, ?_, (lookIn_tags _).2, ht⟩
    rw [hS]
    dsimp only
    rw [hc]
    simp

theorem shows_char {p : Parser} {S : List Sign} (h : Shows p S) (c : Char) :
    Shows { p with chars := p.chars ++ [c] } (S ++ [.char c (lookIn p.formatTags)]) := by
  obtain ⟨S0, hS, hp, ht⟩ := h
  exact ⟨S0, by rw [hS]; simp, hp, ht⟩

/-! ## The parser and the document -/

/-- The parser has shown `S` and is in text of the look `f`, with fallback texts of length `u`.  When `loud`, its
formatting state agrees with the look too. -/
structure InStep (f : Look) (u : Nat) (loud : Prop) (S : List Sign) (p : Parser) : Prop where
  shows : Shows p S
  look : lookIn p.formatTags = f
  uc : p.state.uc = some (u : Int)
  visible : p.state.ignoreGroup = false
  format : loud → lookOf p.state.format = f

theorem inStep_consume {f : Look} {u : Nat} {loud : Prop} {S : List Sign} {p : Parser} (h : InStep f u loud S p)
    (n : Int) : InStep f u loud S (p.consume n) :=
  ⟨shows_of h.shows rfl rfl rfl rfl, h.look, h.uc, h.visible, h.format⟩

theorem inStep_char {f : Look} {u : Nat} {loud : Prop} {S : List Sign} {p : Parser} (h : InStep f u loud S p)
    (c : Char) : InStep f u loud (S ++ [.char c f]) { p with chars := p.chars ++ [c] } := by
  refine ⟨?_, h.look, h.uc, h.visible, h.format⟩
  have := shows_char h.shows c
  rw [h.look] at this
  exact this

theorem inStep_format {f : Look} {u : Nat} {S : List Sign} {p : Parser} (h : InStep f u True S p) (g : Format) :
    InStep (lookOf g) u True S (p.setFormat g) := by
  have hs := shows_stateChanged (p := { p with state := { p.state with format := g } }) (shows_of h.shows rfl rfl rfl rfl)
  have hf := (stateChanged_fields { p with state := { p.state with format := g } }).2.2.1
  refine ⟨hs.1, hs.2, ?_, ?_, fun _ => ?_⟩
  · unfold Parser.setFormat; rw [hf]; exact h.uc
  · unfold Parser.setFormat; rw [hf]; exact h.visible
  · unfold Parser.setFormat; rw [hf]

theorem inStep_par {f : Look} {u : Nat} {loud : Prop} {S : List Sign} {p : Parser} (h : InStep f u loud S p) :
    InStep f u loud (S ++ [.par]) { p.endString with
      tokens := p.endString.tokens ++ (if p.endString.popen then [.etag .p] else []) ++ [.stag .p], popen := true } := by
  obtain ⟨⟨S0, hS, hp, ht⟩, hc, hl⟩ := shows_endString h.shows
  obtain ⟨e1, e2, e3, e4, e5⟩ := endString_fields p
  refine ⟨⟨S0 ++ [.par], ?_, hp, ?_⟩, hl.trans h.look, ?_, ?_, ?_⟩
  · rw [hS]; dsimp only; rw [hc]; simp
  · intro r
    dsimp only
    rw [List.append_assoc, List.append_assoc, ht]
    unfold openTags
    by_cases hpo : p.endString.popen = true
    · rw [if_pos hpo, if_pos hpo]
      simp [shown]
    · rw [if_neg hpo, if_neg hpo]
      simp [shown]
  · dsimp only; rw [e3]; exact h.uc
  · dsimp only; rw [e3]; exact h.visible
  · dsimp only; rw [e3]; exact h.format

theorem inStep_line {f : Look} {u : Nat} {loud : Prop} {S : List Sign} {p : Parser} (h : InStep f u loud S p) :
    InStep f u loud (S ++ [.line]) { p.endString with tokens := p.endString.tokens ++ [.br] } := by
  obtain ⟨⟨S0, hS, hp, ht⟩, hc, hl⟩ := shows_endString h.shows
  obtain ⟨e1, e2, e3, e4, e5⟩ := endString_fields p
  refine ⟨⟨S0 ++ [.line], ?_, hp, ?_⟩, hl.trans h.look, ?_, ?_, ?_⟩
  · rw [hS]; dsimp only; rw [hc]; simp
  · intro r
    dsimp only
    rw [List.append_assoc, ht]
    simp [shown, openTags]
  · dsimp only; rw [e3]; exact h.uc
  · dsimp only; rw [e3]; exact h.visible
  · dsimp only; rw [e3]; exact h.format

/-- At the end the tokens show what was shown. -/
theorem shown_finish {p : Parser} {S : List Sign} (h : Shows p S) : shown [] (finish p) = S := by
  obtain ⟨⟨S0, hS, hp, ht⟩, hc, hl⟩ := shows_endString h
  unfold finish
  rw [ht, hS, hc]
  unfold openTags
  rw [(endString_fields p).2.2.2.2]
  split <;> simp [shown]

/-! ## Commands -/

theorem handle_uc (p : Parser) (prm : Option Int) :
    handle p "uc".toList prm = .ok { p with state := { p.state with uc := prm } } := rfl

theorem handle_u (p : Parser) (prm : Option Int) (c : Char) (n : Int) (hi : p.state.ignoreGroup = false)
    (hu : p.state.uc = some n) (hc : unichr prm = .ok c) :
    handle p "u".toList prm = .ok ({ p with chars := p.chars ++ [c] }.consume n) := by
  unfold handle
  rw [if_neg (by decide), if_neg (by decide), if_pos rfl, hi, hc]
  simp [bind, Except.bind, hu]

theorem handle_fonttbl (p : Parser) (prm : Option Int) :
    handle p "fonttbl".toList prm = .ok { p with state := { p.state with ignoreGroup := true } } := rfl

theorem handle_special (p : Parser) {n : Str} {c : Char} (h : (n, c) ∈ specials) (prm : Option Int) :
    handle p n prm = .ok { p with chars := p.chars ++ [c] } := by
  unfold specials at h
  simp only [List.mem_cons, Prod.mk.injEq, List.not_mem_nil, or_false] at h
  rcases h with ⟨rfl, rfl⟩ | ⟨rfl, rfl⟩ | ⟨rfl, rfl⟩ | ⟨rfl, rfl⟩ | ⟨rfl, rfl⟩ <;> rfl

theorem handle_other (p : Parser) {n : Str} (h : n ∈ others) (prm : Option Int) : handle p n prm = .ok p := by
  unfold others at h
  simp only [List.map_cons, List.map_nil, List.mem_cons, List.not_mem_nil, or_false] at h
  rcases h with rfl | rfl | rfl | rfl | rfl | rfl | rfl | rfl | rfl | rfl | rfl | rfl | rfl | rfl | rfl | rfl <;> rfl

theorem words_letters {i : Item} {n : Str} {p : Option Int} (h : Word i n p) : n ≠ [] ∧ ∀ c ∈ n, Letter c := by
  have key : ∀ n ∈ ["b", "i", "fs", "plain", "par", "line", "lang"].map String.toList ++ (specials.map (·.1) ++ others),
      n ≠ [] ∧ ∀ c ∈ n, Letter c := by
    unfold Letter
    decide
  cases h with
  | bold => exact key _ (List.mem_append_left _ (by decide))
  | italic => exact key _ (List.mem_append_left _ (by decide))
  | size => exact key _ (List.mem_append_left _ (by decide))
  | plain => exact key _ (List.mem_append_left _ (by decide))
  | par => exact key _ (List.mem_append_left _ (by decide))
  | line => exact key _ (List.mem_append_left _ (by decide))
  | special h => exact key _ (List.mem_append_right _ (List.mem_append_left _ (List.mem_map.mpr ⟨_, h, rfl⟩)))
  | other _ h => exact key _ (List.mem_append_right _ (List.mem_append_right _ h))
  | lang => exact key _ (List.mem_append_left _ (by decide))

/-- A step that reads a control word. -/
theorem step_word (T : Tables) (p : Parser) (w d s t : Str) (prm : Option Int) (hne : w ≠ []) (hw : ∀ c ∈ w, Letter c)
    (hd : Param prm d) (hs : Delimited s t) (h : At p ('\\' :: w ++ d ++ t)) :
    ∃ n : Nat, step T p '\\' = handle (p.consume n) w prm ∧ At (p.consume n) s := by
  have h1 : At (p.consume 1) (w ++ d ++ t) := At.consume_one h
  obtain ⟨n, hn, hat⟩ := parseControlWord_run T (p.consume 1) w d s t prm hw hd hs h1
  refine ⟨1 + n, ?_, ?_⟩
  · unfold step
    rw [if_pos rfl]
    dsimp only
    rw [h1.c]
    cases w with
    | nil => exact absurd rfl hne
    | cons x y =>
      simp only [List.cons_append, List.head?_cons]
      rw [if_pos (letter_ascii T (hw x (by simp))).1, hn]
      simp [bind, Except.bind, consume_consume]
  · rw [consume_consume] at hat
    simpa using hat

/-! ## Following text -/

/-- What follows a list of items: the end of the group or of the text. -/
def Follows (t : Str) : Prop := t = [] ∨ ∃ r, t = '}' :: r

theorem delimited_append {s t r : Str} (h : Delimited s t) (hr : Follows r) : Delimited (s ++ r) (t ++ r) := by
  cases h with
  | space => exact .space _
  | nil =>
    rcases hr with rfl | ⟨r, rfl⟩
    · exact .nil
    · exact .other _ (by decide) (by unfold Letter; decide) (by unfold Spec.IsDigit; decide) (by decide) (by decide)
  | other _ h1 h2 h3 h4 h5 => exact .other _ h1 h2 h3 h4 h5

theorem delimited_suffix {s t : Str} (h : Delimited s t) : ∃ a, t = a ++ s := by
  cases h with
  | space => exact ⟨[' '], rfl⟩
  | nil => exact ⟨[], rfl⟩
  | other => exact ⟨[], rfl⟩

/-- The text is written in the part of the notation the tokenizer knows. -/
def Tame (s : Str) : Prop := OnlyWords s ∧ '\n' ∉ s ∧ '\r' ∉ s

theorem tame_suffix {a b : Str} (h : Tame (a ++ b)) : Tame b := by
  refine ⟨fun x y e => h.1 (a ++ x) y (by rw [e]; simp), fun hn => h.2.1 (by simp [hn]), fun hn => h.2.2 (by simp [hn])⟩

theorem tame_before {a t : Str} (h : Tame (a ++ '}' :: t)) : Tame a := by
  refine ⟨fun x y e => ?_, fun hn => h.2.1 (by simp [hn]), fun hn => h.2.2 (by simp [hn])⟩
  obtain ⟨c, r, hc, hl⟩ := h.1 x (y ++ '}' :: t) (by rw [e]; simp)
  cases y with
  | nil =>
    cases hc
    exact absurd hl (by unfold Letter; decide)
  | cons v w => cases hc; exact ⟨_, w, rfl, hl⟩

/-! ## The table of fonts -/

theorem comes_fonts (T : Tables) {u : Nat} {is : List Item} {s : Str} (hw : Writes u is s) (hf : FontEntries is)
    (ht : Tame s) (p : Parser) (t : Str) (hfo : Follows t) (h : At p (s ++ t)) (hi : p.state.ignoreGroup = true)
    (hr : p.state.format = .reset) (hn : p.formatTags = []) :
    ∃ n : Int, Comes T p (p.consume n) ∧ At (p.consume n) t := by
  induction hw generalizing p t with
  | nil u => exact ⟨0, by rw [consume_zero]; exact .refl T p, by rw [consume_zero]; exact h⟩
  | @char u c r s hc _ _ hw ih =>
    have hc' : ¬ c = '\\' ∧ ¬ c = '{' ∧ ¬ c = '}' := by
      unfold Reserved at hc
      refine ⟨fun e => hc (.inl e), fun e => hc (.inr (.inl e)), fun e => hc (.inr (.inr e))⟩
    obtain ⟨n, h1, h2⟩ := ih (by unfold FontEntries at hf; exact hf.2) (tame_suffix (a := [c]) ht) (p.consume 1) t hfo
      (At.consume_one h) hi hr hn
    refine ⟨1 + n, ?_, by rw [← consume_consume]; exact h2⟩
    rw [← consume_consume]
    refine .trans (.step h ?_) h1
    unfold step
    rw [if_neg hc'.1, if_neg hc'.2.1, if_neg hc'.2.2]
    simp [hi]
  | @escaped u c r s hc hw ih =>
    obtain ⟨x, y, e, hl⟩ := ht.1 [] (c :: s) rfl
    cases e
    rcases hc with rfl | rfl | rfl <;> exact absurd hl (by unfold Letter; decide)
  | newline c hc hw ih =>
    rcases hc with rfl | rfl
    · exact absurd (by simp) ht.2.1
    · exact absurd (by simp) ht.2.2
  | unicode => exact absurd hf.1 (by simp [Item.FontEntry])
  | skip => exact absurd hf.1 (by simp [Item.FontEntry])
  | @word u i n prm d r s t' hi' hd hw hdel ih =>
    have hword : handle p n prm = .ok p ∧ ∀ m, handle (p.consume m) n prm = .ok (p.consume m) := by
      cases hi' with
      | other _ h => exact ⟨handle_other p h prm, fun m => handle_other _ h prm⟩
      | lang k => exact ⟨rfl, fun m => rfl⟩
      | bold => exact absurd hf.1 (by simp [Item.FontEntry])
      | italic => exact absurd hf.1 (by simp [Item.FontEntry])
      | size => exact absurd hf.1 (by simp [Item.FontEntry])
      | plain => exact absurd hf.1 (by simp [Item.FontEntry])
      | par => exact absurd hf.1 (by simp [Item.FontEntry])
      | line => exact absurd hf.1 (by simp [Item.FontEntry])
      | special => exact absurd hf.1 (by simp [Item.FontEntry])
    obtain ⟨m, h1, h2⟩ := step_word T p n d (s ++ t) (t' ++ t) prm (words_letters hi').1 (words_letters hi').2 hd
      (delimited_append hdel hfo) (by simpa using h)
    rw [hword.2] at h1
    obtain ⟨a, rfl⟩ := delimited_suffix hdel
    obtain ⟨k, h3, h4⟩ := ih (by unfold FontEntries at hf; exact hf.2)
      (tame_suffix (a := '\\' :: n ++ d ++ a) (by simpa using ht)) (p.consume m) t hfo h2 hi hr hn
    refine ⟨m + k, ?_, by rw [← consume_consume]; exact h4⟩
    rw [← consume_consume]
    exact .trans (.step h h1) h3
  | @group u is r s t' hws hwt ihs iht =>
    have h0 : At p ('{' :: (s ++ '}' :: (t' ++ t))) := by simpa using h
    have ht0 : Tame (['{'] ++ (s ++ '}' :: t')) := by simpa using ht
    have hgo : FontEntries is ∧ FontEntries r := by
      unfold FontEntries Item.FontEntry at hf; exact hf
    obtain ⟨n, h1, h2⟩ := ihs hgo.1 (tame_before (tame_suffix ht0))
      { p.consume 1 with stack := p.state :: p.stack, state := p.state.clone } ('}' :: (t' ++ t)) (.inr ⟨_, rfl⟩)
      ((At.consume_one h0).congr rfl rfl) hi rfl hn
    obtain ⟨k, h3, h4⟩ := iht hgo.2 (tame_suffix (a := ['{'] ++ s ++ ['}']) (by simpa using ht))
      ((p.consume (1 + n)).consume 1) t hfo (by
        rw [← consume_consume]
        exact (At.consume_one h2).congr rfl rfl) hi hr hn
    refine ⟨1 + n + (1 + k), ?_, ?_⟩
    · rw [← consume_consume (m := 1 + n), ← consume_consume (m := 1)]
      refine .trans (.trans (.trans (.step h0 ?_) h1) (.step h2 ?_)) h3
      · unfold step
        rw [if_neg (by decide), if_pos rfl]
      · unfold step
        rw [if_neg (by decide), if_neg (by decide), if_pos rfl]
        simp only [Parser.consume]
        unfold Parser.stateChanged
        simp only [hr, hn]
        rw [if_neg (by simp [Format.tags, Format.reset])]
        simp [Int.add_assoc]
    · rw [← consume_consume (m := 1 + n), ← consume_consume (m := 1)]
      exact h4
  | hidden => exact absurd hf.1 (by simp [Item.FontEntry])

/-! ## The document -/

theorem comes_items (T : Tables) {u : Nat} {is : List Item} {s : Str} (hw : Writes u is s) (f : Look) (loud : Prop)
    (hs : (loud ∧ Supported f is) ∨ ∀ i ∈ is, i.Flat) (ht : Tame s) (S : List Sign) (p : Parser) (t : Str)
    (hfo : Follows t) (h : At p (s ++ t)) (hin : InStep f u loud S p) :
    ∃ q f' u', Comes T p q ∧ At q t ∧ q.stack = p.stack ∧ InStep f' u' loud (S ++ signs f is) q := by
  induction hw generalizing f loud S p t with
  | nil u => exact ⟨p, f, u, .refl T p, h, rfl, by simpa [signs] using hin⟩
  | @char u c r s hc _ _ hw ih =>
    have hc' : ¬ c = '\\' ∧ ¬ c = '{' ∧ ¬ c = '}' := by
      unfold Reserved at hc
      refine ⟨fun e => hc (.inl e), fun e => hc (.inr (.inl e)), fun e => hc (.inr (.inr e))⟩
    have hs' : (loud ∧ Supported f r) ∨ ∀ i ∈ r, i.Flat := by
      rcases hs with ⟨hl, hs⟩ | hs
      · unfold Supported at hs; exact .inl ⟨hl, hs.2⟩
      · exact .inr (fun i hi => hs i (by simp [hi]))
    obtain ⟨q, f', u', h1, h2, h3, h4⟩ := ih f loud hs' (tame_suffix (a := [c]) ht) (S ++ [.char c f])
      ({ p with chars := p.chars ++ [c] }.consume 1) t hfo ((At.consume_one h).congr rfl rfl)
      (inStep_consume (inStep_char hin c) 1)
    refine ⟨q, f', u', .trans (.step h ?_) h1, h2, h3, ?_⟩
    · unfold step
      rw [if_neg hc'.1, if_neg hc'.2.1, if_neg hc'.2.2, hin.visible]
      rfl
    · simpa [signs, Item.signs, Item.after] using h4
  | @escaped u c r s hc hw ih =>
    obtain ⟨x, y, e, hl⟩ := ht.1 [] (c :: s) rfl
    cases e
    rcases hc with rfl | rfl | rfl <;> exact absurd hl (by unfold Letter; decide)
  | newline c hc hw ih =>
    rcases hc with rfl | rfl
    · exact absurd (by simp) ht.2.1
    · exact absurd (by simp) ht.2.2
  | @unicode u c fb d r s t' hc hfb hfb' hd hw hdel ih =>
    have hlow : c.toNat < 0x8000 ∧ ((loud ∧ Supported f r) ∨ ∀ i ∈ r, i.Flat) := by
      rcases hs with ⟨hl, hs⟩ | hs
      · unfold Supported Item.Supported at hs
        exact ⟨hs.1, .inl ⟨hl, hs.2⟩⟩
      · exact ⟨hs (.unicode c fb) (by simp), .inr (fun i hi => hs i (by simp [hi]))⟩
    obtain ⟨m, h1, h2⟩ := step_word T p "u".toList d (fb ++ s ++ t) (t' ++ t) (some (number c)) (by decide)
      (by intro x hx; have : x = 'u' := by simpa using hx
          subst this; unfold Letter; decide) hd (delimited_append hdel hfo) (by simpa using h)
    have hchr : unichr (some (number c)) = .ok c := by
      unfold unichr number
      rw [if_pos hlow.1]
      dsimp only
      rw [if_neg (by omega), if_neg (by omega)]
      simp
    rw [handle_u (p.consume m) _ c u hin.visible hin.uc hchr] at h1
    obtain ⟨a, rfl⟩ := delimited_suffix hdel
    obtain ⟨q, f', u', h3, h4, h5, h6⟩ := ih f loud hlow.2 (tame_suffix (a := '\\' :: 'u' :: d ++ a ++ fb) (by simpa using ht))
      (S ++ [.char c f]) ({ p.consume m with chars := p.chars ++ [c] }.consume u) t hfo (by
        rw [← hfb]
        refine (At.consume (p := p.consume m) (a := fb) (s := s ++ t) (by simpa using h2)).congr rfl rfl)
      (inStep_consume (inStep_char (inStep_consume hin m) c) u)
    refine ⟨q, f', u', .trans (.step h h1) h3, h4, h5, ?_⟩
    simpa [signs, Item.signs, Item.after] using h6
  | @skip u n d r s t' hd hw hdel ih =>
    have hs' : (loud ∧ Supported f r) ∨ ∀ i ∈ r, i.Flat := by
      rcases hs with ⟨hl, hs⟩ | hs
      · unfold Supported at hs; exact .inl ⟨hl, hs.2⟩
      · exact .inr (fun i hi => hs i (by simp [hi]))
    obtain ⟨m, h1, h2⟩ := step_word T p "uc".toList d (s ++ t) (t' ++ t) (some n) (by decide)
      (by intro x hx
          have : x = 'u' ∨ x = 'c' := by simpa using hx
          rcases this with rfl | rfl <;> (unfold Letter; decide)) (.plain hd) (delimited_append hdel hfo) (by simpa using h)
    rw [handle_uc] at h1
    obtain ⟨a, rfl⟩ := delimited_suffix hdel
    obtain ⟨q, f', u', h3, h4, h5, h6⟩ := ih f loud hs' (tame_suffix (a := '\\' :: 'u' :: 'c' :: d ++ a) (by simpa using ht))
      S { p.consume m with state := { p.state with uc := some n } } t hfo (h2.congr rfl rfl)
      ⟨shows_of hin.shows rfl rfl rfl rfl, hin.look, rfl, hin.visible, hin.format⟩
    refine ⟨q, f', u', .trans (.step h h1) h3, h4, h5, ?_⟩
    simpa [signs, Item.signs, Item.after] using h6
  | @word u i n prm d r s t' hi' hd hw hdel ih =>
    obtain ⟨m, h1, h2⟩ := step_word T p n d (s ++ t) (t' ++ t) prm (words_letters hi').1 (words_letters hi').2 hd
      (delimited_append hdel hfo) (by simpa using h)
    obtain ⟨a, rfl⟩ := delimited_suffix hdel
    have ht' := tame_suffix (a := '\\' :: n ++ d ++ a) (by simpa using ht)
    have hin' := inStep_consume hin (m : Int)
    have hfl : (loud ∧ Supported (i.after f) r) ∨ (i.Flat ∧ ∀ j ∈ r, j.Flat) := by
      rcases hs with ⟨hl, hs⟩ | hs
      · unfold Supported at hs; exact .inl ⟨hl, hs.2⟩
      · exact .inr ⟨hs i (by simp), fun i hi => hs i (by simp [hi])⟩
    -- it is enough to find the state after the word
    suffices hgo : ∃ v, handle (p.consume m) n prm = .ok v ∧ v.input = p.input ∧ v.pos = (p.consume m).pos ∧
        v.stack = p.stack ∧ InStep (i.after f) u loud (S ++ i.signs f) v by
      obtain ⟨v, hv, hvi, hvp, hvs, hv'⟩ := hgo
      rw [hv] at h1
      obtain ⟨q, f', u', h3, h4, h5, h6⟩ := ih (i.after f) loud (by
        rcases hfl with h | h
        · exact .inl h
        · exact .inr h.2) ht' (S ++ i.signs f) v t hfo (h2.congr hvi hvp) hv'
      refine ⟨q, f', u', .trans (.step h h1) h3, h4, h5.trans hvs, ?_⟩
      rw [signs, ← List.append_assoc]; exact h6
    have hloud : ¬ i.Flat → loud := fun hno => by
      rcases hfl with h | h
      · exact h.1
      · exact absurd h.1 hno
    have fmt : ∀ g : Format, loud → (p.consume m).setFormat g = (p.consume m).setFormat g ∧
        ((p.consume m).setFormat g).input = p.input ∧ ((p.consume m).setFormat g).pos = (p.consume m).pos ∧
        ((p.consume m).setFormat g).stack = p.stack ∧ InStep (lookOf g) u loud S ((p.consume m).setFormat g) := by
      intro g hl
      obtain ⟨e1, e2, e3, e4, e5⟩ := stateChanged_fields
        { p.consume m with state := { (p.consume m).state with format := g } }
      have hT : loud = True := by simp [hl]
      refine ⟨rfl, e1, e2, e4, ?_⟩
      rw [hT]
      exact inStep_format (by rw [hT] at hin'; exact hin') g
    obtain ⟨e1, e2, e3, e4, e5⟩ := endString_fields (p.consume m)
    cases hi' with
    | bold =>
      obtain ⟨-, a1, a2, a3, a4⟩ := fmt { p.state.format with bold := prm.getD 1 } (hloud (by simp [Item.Flat]))
      refine ⟨_, rfl, a1, a2, a3, ?_⟩
      have hf := hin.format (hloud (by simp [Item.Flat]))
      have : Item.after f (.bold prm) = lookOf { p.state.format with bold := prm.getD 1 } := by
        rw [← hf]
        cases prm <;> simp [Item.after, lookOf, on]
      rw [this, show Item.signs f (.bold prm) = [] by simp [Item.signs], List.append_nil]
      exact a4
    | italic =>
      obtain ⟨-, a1, a2, a3, a4⟩ := fmt { p.state.format with italic := prm.getD 1 } (hloud (by simp [Item.Flat]))
      refine ⟨_, rfl, a1, a2, a3, ?_⟩
      have hf := hin.format (hloud (by simp [Item.Flat]))
      have : Item.after f (.italic prm) = lookOf { p.state.format with italic := prm.getD 1 } := by
        rw [← hf]
        cases prm <;> simp [Item.after, lookOf, on]
      rw [this, show Item.signs f (.italic prm) = [] by simp [Item.signs], List.append_nil]
      exact a4
    | size k =>
      obtain ⟨-, a1, a2, a3, a4⟩ := fmt { p.state.format with size := fsSize (some k) } (hloud (by simp [Item.Flat]))
      refine ⟨_, rfl, a1, a2, a3, ?_⟩
      have hf := hin.format (hloud (by simp [Item.Flat]))
      have : Item.after f (.size k) = lookOf { p.state.format with size := fsSize (some k) } := by
        rw [← hf]
        unfold Item.after lookOf Spec.Rtf.sizeOf fsSize
        by_cases h1 : k < 22
        · simp [h1]
        · by_cases h2 : k > 26 <;> simp [h1, h2]
      rw [this, show Item.signs f (.size k) = [] by simp [Item.signs], List.append_nil]
      exact a4
    | plain =>
      obtain ⟨-, a1, a2, a3, a4⟩ := fmt .reset (hloud (by simp [Item.Flat]))
      refine ⟨_, rfl, a1, a2, a3, ?_⟩
      have : Item.after f .plain = lookOf .reset := rfl
      rw [this, show Item.signs f .plain = [] by simp [Item.signs], List.append_nil]
      exact a4
    | par => exact ⟨_, rfl, e1, e2, e4, inStep_par hin'⟩
    | line => exact ⟨_, rfl, e1, e2, e4, inStep_line hin'⟩
    | special hsp => exact ⟨_, handle_special _ hsp _, rfl, rfl, rfl, inStep_char hin' _⟩
    | other _ ho => exact ⟨_, handle_other _ ho _, rfl, rfl, rfl, by simpa [Item.signs, Item.after] using hin'⟩
    | lang k => exact ⟨_, rfl, rfl, rfl, rfl, by simpa [Item.signs, Item.after] using hin'⟩
  | @group u is r s t' hws hwt ihs iht =>
    have h0 : At p ('{' :: (s ++ '}' :: (t' ++ t))) := by simpa using h
    have ht0 : Tame (['{'] ++ (s ++ '}' :: t')) := by simpa using ht
    -- groups are not opened in flat parts
    obtain ⟨hl, hsi, hsr⟩ : loud ∧ ((f = .plain ∧ Supported f is) ∨ ∀ i ∈ is, i.Flat) ∧ Supported f r := by
      rcases hs with ⟨hl, hs⟩ | hs
      · unfold Supported Item.Supported at hs; exact ⟨hl, hs⟩
      · exact absurd (hs (.group is) (by simp)) (by simp [Item.Flat])
    obtain ⟨q, f', u', h1, h2, h3, h4⟩ := ihs f (f = .plain) (by
        rcases hsi with h | h
        · exact .inl h
        · exact .inr h) (tame_before (tame_suffix ht0)) S
      { p.consume 1 with stack := p.state :: p.stack, state := p.state.clone } ('}' :: (t' ++ t)) (.inr ⟨_, rfl⟩)
      ((At.consume_one h0).congr rfl rfl)
      ⟨shows_of hin.shows rfl rfl rfl rfl, hin.look, hin.uc, hin.visible, fun hp => by rw [hp]; rfl⟩
    have hclose := shows_stateChanged (p := { q.consume 1 with stack := p.stack, state := p.state })
      (shows_of h4.shows rfl rfl rfl rfl)
    obtain ⟨e1, e2, e3, e4, e5⟩ := stateChanged_fields { q.consume 1 with stack := p.stack, state := p.state }
    obtain ⟨q', f'', u'', h5, h6, h7, h8⟩ := iht f loud (.inl ⟨hl, hsr⟩)
      (tame_suffix (a := ['{'] ++ s ++ ['}']) (by simpa using ht)) (S ++ signs f is)
      { q.consume 1 with stack := p.stack, state := p.state }.stateChanged t hfo
      ((At.consume_one h2).congr e1 e2)
      ⟨hclose.1, hclose.2.trans (hin.format hl), by rw [e3]; exact hin.uc, by rw [e3]; exact hin.visible,
        fun _ => by rw [e3]; exact hin.format hl⟩
    refine ⟨q', f'', u'', .trans (.trans (.trans (.step h0 ?_) h1) (.step h2 ?_)) h5, h6, h7.trans e4, ?_⟩
    · unfold step
      rw [if_neg (by decide), if_pos rfl]
    · unfold step
      rw [if_neg (by decide), if_neg (by decide), if_pos rfl, h3]
    · simpa [signs, Item.signs, Item.after] using h8
  | @hidden u n is r s s' t' hn hws hdel hwt ihs iht =>
    have h0 : At p ('{' :: ('\\' :: n ++ [] ++ (s' ++ '}' :: (t' ++ t)))) := by simpa using h
    obtain ⟨hl, hfp, hnf, hfe, hsr⟩ : loud ∧ f = .plain ∧ n = "fonttbl".toList ∧ FontEntries is ∧ Supported f r := by
      rcases hs with ⟨hl, hs⟩ | hs
      · unfold Supported Item.Supported at hs; exact ⟨hl, hs.1.1, hs.1.2.1, hs.1.2.2, hs.2⟩
      · exact absurd (hs (.hidden n is) (by simp)) (by simp [Item.Flat])
    have htags : p.formatTags = [] := by
      obtain ⟨_, _, hp, _⟩ := hin.shows
      exact tags_nil (by rw [hin.look, hfp]) hp
    obtain ⟨m, h1, h2⟩ := step_word T { p.consume 1 with stack := p.state :: p.stack, state := p.state.clone } n []
      (s ++ '}' :: (t' ++ t)) (s' ++ '}' :: (t' ++ t)) none (by rw [hnf]; decide)
      (by rw [hnf]; unfold Letter; decide) .none (delimited_append hdel (.inr ⟨_, rfl⟩))
      ((At.consume_one h0).congr rfl rfl)
    rw [hnf, handle_fonttbl] at h1
    obtain ⟨a, rfl⟩ := delimited_suffix hdel
    have hts : Tame s := tame_before (t := t') (tame_suffix (a := '{' :: '\\' :: n ++ a) (by simpa using ht))
    obtain ⟨k, h3, h4⟩ := comes_fonts T hws hfe hts
      { p.consume (1 + m) with stack := p.state :: p.stack, state := { p.state.clone with ignoreGroup := true } }
      ('}' :: (t' ++ t)) (.inr ⟨_, rfl⟩) (h2.congr rfl (by simp only [Parser.consume, Int.add_assoc])) rfl rfl htags
    have hclose := shows_stateChanged (p := { p.consume (1 + m + k + 1) with stack := p.stack, state := p.state })
      (shows_of hin.shows rfl rfl rfl rfl)
    obtain ⟨e1, e2, e3, e4, e5⟩ := stateChanged_fields { p.consume (1 + m + k + 1) with stack := p.stack, state := p.state }
    obtain ⟨q', f'', u'', h5, h6, h7, h8⟩ := iht f loud (.inl ⟨hl, hsr⟩)
      (tame_suffix (a := '{' :: '\\' :: n ++ (a ++ s) ++ ['}']) (by simpa using ht)) S
      { p.consume (1 + m + k + 1) with stack := p.stack, state := p.state }.stateChanged t hfo
      ((At.consume_one h4).congr e1 (e2.trans (by simp only [Parser.consume]; omega)))
      ⟨hclose.1, hclose.2.trans (hin.format hl), by rw [e3]; exact hin.uc, by rw [e3]; exact hin.visible,
        fun _ => by rw [e3]; exact hin.format hl⟩
    have g1 : Comes T p { p.consume 1 with stack := p.state :: p.stack, state := p.state.clone } := by
      refine .step h0 ?_
      unfold step
      rw [if_neg (by decide), if_pos rfl]
    refine ⟨q', f'', u'', .trans (.trans (.trans (.trans g1 (.step ((At.consume_one h0).congr rfl rfl) ?_)) h3)
      (.step h4 ?_)) h5, h6, h7.trans e4, ?_⟩
    · rw [h1]
      simp only [Parser.consume, Int.add_assoc]
    · unfold step
      rw [if_neg (by decide), if_neg (by decide), if_pos rfl]
      simp only [Parser.consume, Int.add_assoc]
    · simpa [signs, Item.signs, Item.after] using h8

/-- **C74** (in part).  A document is shown as it is meant: the same characters, paragraph and line breaks in the same
order, each character with its look.  Provided that groups are opened in unformatted text or have no formatting and no
groups in them, characters given by number are below U+8000, the only hidden groups are font tables, no characters are
escaped and lines are not broken. -/
theorem rtf_shown_partial (T : Tables) (items : List Item) (text : Str) (hw : Writes 1 items text)
    (hs : Supported .plain items) (ho : OnlyWords text) (hn : '\n' ∉ text) (hr : '\r' ∉ text) :
    ∃ k ts, (∀ n, k ≤ n → tokenize T n text = some (.ok ts)) ∧ shown [] ts = signs .plain items := by
  obtain ⟨q, f', u', ⟨k, h1⟩, h2, -, h4⟩ := comes_items T hw .plain True (.inl ⟨trivial, hs⟩) ⟨ho, hn, hr⟩ []
    (start text) [] (.inl rfl) (by rw [List.append_nil]; exact ⟨Int.le_refl _, by simp [start], rfl⟩)
    ⟨⟨[], rfl, by simp [start], fun r => rfl⟩, rfl, rfl, rfl, fun _ => rfl⟩
  refine ⟨1 + k, finish q, ?_, by simpa using shown_finish h4.shows⟩
  intro n hkn
  have e : loop T (1 + k) (start text) = some (.ok (finish q)) := by
    rw [h1 1]
    unfold loop
    rw [h2.c]
    rfl
  have := loop_more e (n - (1 + k))
  rw [show 1 + k + (n - (1 + k)) = n by omega] at this
  exact this

/-- A document with a font table, groups, formatting, a character given by number and a paragraph break. -/
def sampleItems : List Item :=
  [.group [.other "rtf".toList (some 1), .hidden "fonttbl".toList [.group [.other "f".toList (some 0), .char 'T', .char ';']],
    .skip 1, .char 'a', .bold none, .char 'b', .group [.char 'c', .unicode 'ω' ['o']], .italic (some 1), .char 'd', .par,
    .size 30, .char 'e', .bold (some 0), .char 'f', .plain, .group [.italic none, .special "rquote".toList '’'], .char 'g']]

/-- The text of the sample document. -/
def sampleText : Str :=
  "{\\rtf1{\\fonttbl{\\f0 T;}}\\uc1 a\\b b{c\\u969 o}\\i1 d\\par\\fs30 e\\b0 f\\plain{\\i\\rquote}g}".toList

theorem sample_writes : Writes 1 sampleItems sampleText := by
  have dig : ∀ s : Str, s ≠ [] → (∀ c ∈ s, '0' ≤ c ∧ c ≤ '9') → Spec.NaturalText s (Spec.digitsValue s) :=
    fun s h h' => .mk h h'
  have del : ∀ (c : Char) (s : Str), c = '\\' ∨ c = '{' ∨ c = '}' → Delimited (c :: s) (c :: s) := by
    intro c s hc
    rcases hc with rfl | rfl | rfl <;>
      exact .other _ (by decide) (by unfold Letter; decide) (by unfold Spec.IsDigit; decide) (by decide) (by decide)
  have chr : ∀ c : Char, c ∉ ['\\', '{', '}', '\n', '\r'] → ∀ {u r s}, Writes u r s → Writes u (.char c :: r) (c :: s) := by
    intro c hc u r s hw
    simp only [List.mem_cons, List.not_mem_nil, or_false, not_or] at hc
    exact .char (by unfold Reserved; simp [hc]) hc.2.2.2.1 hc.2.2.2.2 hw
  have w0 : Writes 1 [.char 'g'] ['g'] := chr 'g' (by decide) (.nil 1)
  have w1 : Writes 1 [.italic none, .special "rquote".toList '’'] "\\i\\rquote".toList :=
    .word (.italic none) .none (.word (.special (by decide)) .none (.nil 1) .nil) (del _ _ (.inl rfl))
  have w2 := Writes.word .plain .none (Writes.group w1 w0) (del _ _ (.inr (.inl rfl)))
  have w3 := chr 'f' (by decide) w2
  have w4 := Writes.word (.bold (some 0)) (.plain (n := 0) (dig ['0'] (by decide) (by decide))) w3 (.space _)
  have w5 := chr 'e' (by decide) w4
  have w6 := Writes.word (.size 30) (.plain (n := 30) (dig ['3', '0'] (by decide) (by decide))) w5 (.space _)
  have w7 := Writes.word .par .none w6 (del _ _ (.inl rfl))
  have w8 := chr 'd' (by decide) w7
  have w9 := Writes.word (.italic (some 1)) (.plain (n := 1) (dig ['1'] (by decide) (by decide))) w8 (.space _)
  have u1 : Writes 1 [.unicode 'ω' ['o']] "\\u969 o".toList :=
    .unicode (c := 'ω') (fb := ['o']) (d := ['9', '6', '9']) (by decide) rfl (by unfold Reserved; decide)
      (.plain (n := 969) (dig ['9', '6', '9'] (by decide) (by decide))) (.nil 1) (.space _)
  have w10 := Writes.group (chr 'c' (by decide) u1) w9
  have w11 := chr 'b' (by decide) w10
  have w12 := Writes.word (.bold none) .none w11 (.space _)
  have w13 := chr 'a' (by decide) w12
  have w14 := Writes.skip (u := 1) (dig ['1'] (by decide) (by decide)) w13 (.space _)
  have f1 := Writes.word (.other (n := "f".toList) (some 0) (by decide)) (.plain (n := 0) (dig ['0'] (by decide) (by decide)))
    (chr 'T' (by decide) (chr ';' (by decide) (.nil 1))) (.space _)
  have w15 := Writes.hidden (n := "fonttbl".toList) (by decide) (Writes.group f1 (.nil 1)) (del _ _ (.inr (.inl rfl))) w14
  have w16 := Writes.word (.other (n := "rtf".toList) (some 1) (by decide))
    (.plain (n := 1) (dig ['1'] (by decide) (by decide))) w15 (del _ _ (.inr (.inl rfl)))
  exact Writes.group w16 (.nil 1)

/-- Backslashes only before letters, tested. -/
def onlyWordsB : Str → Bool
  | [] => true
  | [c] => c != '\\'
  | c :: d :: r => (c != '\\' || ('a' ≤ d && d ≤ 'z') || ('A' ≤ d && d ≤ 'Z')) && onlyWordsB (d :: r)

theorem onlyWords_of (s : Str) (h : onlyWordsB s = true) : OnlyWords s := by
  intro a b e
  induction a generalizing s with
  | nil =>
    subst e
    cases b with
    | nil => simp [onlyWordsB] at h
    | cons d r =>
      refine ⟨d, r, rfl, ?_⟩
      simp [onlyWordsB] at h
      exact h.1
  | cons x a ih =>
    subst e
    refine ih _ ?_ rfl
    cases ha : a ++ '\\' :: b with
    | nil => rfl
    | cons d r =>
      rw [List.cons_append, ha] at h
      simp only [onlyWordsB, Bool.and_eq_true] at h
      exact h.2

example : Supported .plain sampleItems ∧ OnlyWords sampleText ∧ '\n' ∉ sampleText ∧ '\r' ∉ sampleText := by
  refine ⟨?_, onlyWords_of _ (by decide +kernel), by decide +kernel, by decide +kernel⟩
  simp only [sampleItems, Supported, Item.Supported, Item.after, FontEntries, Item.FontEntry, and_true, true_and]
  refine .inl ⟨.inr ?_, .inl trivial⟩
  intro i hi
  simp only [List.mem_cons, List.not_mem_nil, or_false] at hi
  rcases hi with rfl | rfl
  · simp [Item.Flat]
  · simp only [Item.Flat]; decide

example : signs .plain sampleItems = [.char 'a' .plain, .char 'b' ⟨true, false, .normal⟩, .char 'c' ⟨true, false, .normal⟩,
    .char 'ω' ⟨true, false, .normal⟩, .char 'd' ⟨true, true, .normal⟩, .par, .char 'e' ⟨true, true, .big⟩,
    .char 'f' ⟨false, true, .big⟩, .char '’' ⟨false, true, .normal⟩, .char 'g' .plain] := by
  simp [sampleItems, signs, Item.signs, Item.after, on, Spec.Rtf.sizeOf, Look.plain]

/-! ## Text without commands -/

theorem comes_plain (T : Tables) (s : Str) (hs : ∀ c ∈ s, ¬ Reserved c) (p : Parser) (h : At p s)
    (hi : p.state.ignoreGroup = false) :
    ∃ q, Comes T p q ∧ At q [] ∧ q.chars = p.chars ++ s ∧ q.tokens = p.tokens ∧ q.formatTags = p.formatTags ∧
      q.popen = p.popen := by
  induction s generalizing p with
  | nil => exact ⟨p, .refl T p, h, by simp, rfl, rfl, rfl⟩
  | cons c s ih =>
    have hc' : ¬ c = '\\' ∧ ¬ c = '{' ∧ ¬ c = '}' := by
      have hc := hs c (by simp)
      unfold Reserved at hc
      refine ⟨fun e => hc (.inl e), fun e => hc (.inr (.inl e)), fun e => hc (.inr (.inr e))⟩
    obtain ⟨q, h1, h2, h3, h4, h5, h6⟩ := ih (fun x hx => hs x (by simp [hx]))
      ({ p with chars := p.chars ++ [c] }.consume 1) ((At.consume_one h).congr rfl rfl) hi
    refine ⟨q, .trans (.step h ?_) h1, h2, by rw [h3]; simp [Parser.consume], h4, h5, h6⟩
    unfold step
    rw [if_neg hc'.1, if_neg hc'.2.1, if_neg hc'.2.2, hi]
    rfl

/-- **C74** (text without commands).  Text without backslashes and braces becomes that text. -/
theorem rtf_plain_text (T : Tables) (c : Char) (s : Str) (hs : ∀ x ∈ c :: s, ¬ Reserved x) :
    ∃ k, ∀ n, k ≤ n → tokenize T n (c :: s) = some (.ok [.text (c :: s)]) := by
  obtain ⟨q, ⟨k, h1⟩, h2, h3, h4, h5, h6⟩ := comes_plain T (c :: s) hs (start (c :: s))
    ⟨Int.le_refl _, by simp [start]; omega, rfl⟩ rfl
  refine ⟨1 + k, fun n hkn => ?_⟩
  have e : loop T (1 + k) (start (c :: s)) = some (.ok [.text (c :: s)]) := by
    rw [h1 1]
    unfold loop
    rw [h2.c]
    dsimp only [List.head?_nil]
    unfold finish Parser.endString
    have hq : q.chars = c :: s := by rw [h3]; rfl
    rw [hq, h4, h5, h6, if_neg (by simp)]
    rfl
  have := loop_more e (n - (1 + k))
  rw [show 1 + k + (n - (1 + k)) = n by omega] at this
  exact this

example : ∀ x ∈ "a < b".toList, ¬ Reserved x := by unfold Reserved; decide

/-! ## What is lost -/

theorem writes_chars (s : Str) (h : ∀ c ∈ s, c ∉ ['\\', '{', '}', '\n', '\r']) : Writes 1 (s.map .char) s := by
  induction s with
  | nil => exact .nil 1
  | cons c s ih =>
    have hc := h c (by simp)
    simp only [List.mem_cons, List.not_mem_nil, or_false, not_or] at hc
    exact .char (by unfold Reserved; simp [hc]) hc.2.2.2.1 hc.2.2.2.2 (ih (fun x hx => h x (by simp [hx])))

/-- **C74** (refuted: formatting around groups).  In `{\b x{\i y}}` the second character is bold and italic; it is shown
in italics only. -/
theorem rtf_outer_format_lost : ∃ ts,
    Writes 1 [.group [.bold none, .char 'x', .group [.italic none, .char 'y']]] "{\\b x{\\i y}}".toList ∧
    tokenize asciiTables 20 "{\\b x{\\i y}}".toList = some (.ok ts) ∧
    signs .plain [.group [.bold none, .char 'x', .group [.italic none, .char 'y']]] =
      [.char 'x' ⟨true, false, .normal⟩, .char 'y' ⟨true, true, .normal⟩] ∧
    shown [] ts = [.char 'x' ⟨true, false, .normal⟩, .char 'y' ⟨false, true, .normal⟩] := by
  refine ⟨[.stag .b, .text ['x'], .etag .b, .stag .i, .text ['y'], .etag .i], ?_, by decide +kernel, ?_, by decide +kernel⟩
  · have h1 : Writes 1 [.italic none, .char 'y'] "\\i y".toList :=
      .word (.italic none) .none (writes_chars ['y'] (by decide)) (.space _)
    have h2 : Writes 1 [.char 'x', .group [.italic none, .char 'y']] "x{\\i y}".toList :=
      .char (by unfold Reserved; decide) (by decide) (by decide) (.group h1 (.nil 1))
    exact .group (.word (.bold none) .none h2 (.space _)) (.nil 1)
  · simp [signs, Item.signs, Item.after, on, Look.plain]

/-- **C74** (refuted: groups inside plain groups).  In `{\b x{y{z}w}}` all characters are bold; the `w` is not shown
bold. -/
theorem rtf_group_format_lost : ∃ ts,
    Writes 1 [.group [.bold none, .char 'x', .group [.char 'y', .group [.char 'z'], .char 'w']]] "{\\b x{y{z}w}}".toList ∧
    tokenize asciiTables 20 "{\\b x{y{z}w}}".toList = some (.ok ts) ∧
    Sign.char 'w' ⟨true, false, .normal⟩ ∈
      signs .plain [.group [.bold none, .char 'x', .group [.char 'y', .group [.char 'z'], .char 'w']]] ∧
    Sign.char 'w' .plain ∈ shown [] ts := by
  refine ⟨[.stag .b, .text ['x', 'y', 'z'], .etag .b, .text ['w']], ?_, by decide +kernel, ?_, by decide +kernel⟩
  · have h1 : Writes 1 [.char 'y', .group [.char 'z'], .char 'w'] "y{z}w".toList :=
      .char (by unfold Reserved; decide) (by decide) (by decide)
        (.group (writes_chars ['z'] (by decide)) (writes_chars ['w'] (by decide)))
    have h2 : Writes 1 [.char 'x', .group [.char 'y', .group [.char 'z'], .char 'w']] "x{y{z}w}".toList :=
      .char (by unfold Reserved; decide) (by decide) (by decide) (.group h1 (.nil 1))
    exact .group (.word (.bold none) .none h2 (.space _)) (.nil 1)
  · simp [signs, Item.signs, Item.after, on, Look.plain]

/-- **C74** (refuted: escaped characters).  The brace and the backslash written as `\{` and `\\` are lost. -/
theorem rtf_escaped_lost :
    Writes 1 [.char 'a', .char '{', .char '\\', .char 'b'] "a\\{\\\\b".toList ∧
    tokenize asciiTables 20 "a\\{\\\\b".toList = some (.ok [.text "ab".toList]) :=
  ⟨.char (by unfold Reserved; decide) (by decide) (by decide) (.escaped (.inr (.inl rfl)) (.escaped (.inl rfl)
    (writes_chars ['b'] (by decide)))), by decide +kernel⟩

/-- **C74** (refuted: broken lines).  A line break in the file, which has no meaning, becomes part of the text. -/
theorem rtf_newline_kept :
    Writes 1 [.char 'a', .char 'b'] "a\nb".toList ∧
    tokenize asciiTables 20 "a\nb".toList = some (.ok [.text "a\nb".toList]) :=
  ⟨.char (by unfold Reserved; decide) (by decide) (by decide) (.newline '\n' (.inl rfl) (writes_chars ['b'] (by decide))),
    by decide +kernel⟩

/-- **C74** (refuted: characters above U+7FFF).  They cannot be converted at all. -/
theorem rtf_high_characters_fail :
    Writes 1 [.unicode (Char.ofNat 0xFB01) ['?']] "\\u-1279 ?".toList ∧
    tokenize asciiTables 20 "\\u-1279 ?".toList = some (.error .valueError) :=
  ⟨.unicode (d := "-1279".toList) (by decide) rfl (by unfold Reserved; decide)
    (.minus (n := 1279) (.mk (by decide) (by unfold Spec.IsDigit; decide))) (.nil 1) (.space _), by decide +kernel⟩

/-- **C74** (refuted: hidden groups).  The table of colours is shown. -/
theorem rtf_colours_shown :
    Writes 1 [.hidden "colortbl".toList [.char ';'], .char 'a'] "{\\colortbl;}a".toList ∧
    signs .plain [.hidden "colortbl".toList [.char ';'], .char 'a'] = [.char 'a' .plain] ∧
    tokenize asciiTables 20 "{\\colortbl;}a".toList = some (.ok [.text ";a".toList]) :=
  ⟨.hidden (by decide) (writes_chars [';'] (by decide)) (.other _ (by decide) (by unfold Letter; decide)
    (by unfold Spec.IsDigit; decide) (by decide) (by decide)) (writes_chars ['a'] (by decide)),
    by simp [signs, Item.signs, Item.after], by decide +kernel⟩

end Verif.Props
