import Verif.Model.XmlLines

/-!
# Characters, lines and positions of XML entities: properties
-/

namespace Verif.Props.XmlLines

open Verif Verif.XmlLines

/-! ## Specification -/

/-- The ends of lines of XML (XML 1.0, 2.11): carriage returns, with a line feed or without, are line
feeds. -/
def normalise : Str → Str
  | [] => []
  | '\r' :: '\n' :: t => '\n' :: normalise t
  | '\r' :: t => '\n' :: normalise t
  | c :: t => c :: normalise t

/-! ## One character -/

/-- What is left to be read. -/
def unread (e : Entity) : Str := e.chars.drop e.next ++ e.source.data

theorem source_read (s : Source) : s.data = s.read.1 ++ s.read.2.data ∧ (s.read.1 = [] → s.data = []) := by
  unfold Source.read
  split
  · refine ⟨(List.take_append_drop ..).symm, ?_⟩
    intro h
    rcases List.take_eq_nil_iff.1 h with h | h
    · cases h
    · exact h
  · refine ⟨(List.take_append_drop ..).symm, ?_⟩
    intro h
    rcases List.take_eq_nil_iff.1 h with h | h
    · omega
    · exact h

/-- What `fetch` keeps. -/
structure Fetched (e e' : Entity) : Prop where
  ign : e'.ignoreLF = e.ignoreLF
  line : e'.line = e.line
  col : e'.col = e.col + 1
  ended : e'.ended = e.ended

theorem fetch_spec (e : Entity) :
    (fetch e).1 = (unread e).head? ∧ unread (fetch e).2 = (unread e).tail ∧ Fetched e (fetch e).2 := by
  unfold fetch
  simp only
  rcases hc : e.chars[e.next]? with _ | c
  · have hd : e.chars.drop e.next = [] := by
      apply List.drop_of_length_le
      exact List.getElem?_eq_none_iff.1 hc
    obtain ⟨h1, h2⟩ := source_read e.source
    simp only
    rcases hr : e.source.read with ⟨cs, s⟩
    rw [hr] at h1 h2
    simp only at h1 h2
    cases cs with
    | nil =>
      have h3 := h2 rfl
      have h4 : s.data = [] := by rw [h3] at h1; simpa using h1.symm
      refine ⟨?_, ?_, ⟨rfl, rfl, rfl, rfl⟩⟩
      · simp [unread, hd, h3]
      · simp [unread, hd, h3, h4]
    | cons c cs =>
      refine ⟨?_, ?_, ⟨rfl, rfl, rfl, rfl⟩⟩
      · simp [unread, hd, h1]
      · simp [unread, hd, h1]
  · have hlt : e.next < e.chars.length := (List.getElem?_eq_some_iff.1 hc).1
    have hd : e.chars.drop e.next = c :: e.chars.drop (e.next + 1) := by
      rw [List.drop_eq_getElem_cons hlt, (List.getElem?_eq_some_iff.1 hc).2]
    refine ⟨?_, ?_, ⟨rfl, rfl, rfl, rfl⟩⟩
    · simp [unread, hd]
    · simp [unread, hd]

/-- The next character of a text: it, what is left, whether a line feed is then ignored, and how many
characters were passed. -/
def next (ign : Bool) : Str → Option (Char × Str × Bool × Nat)
  | [] => none
  | c :: t =>
    if c = '\r' then some ('\n', t, true, 1)
    else if c = '\n' then
      if ign = true then
        match t with
        | [] => none
        | d :: u => if d = '\r' then some ('\n', u, true, 2) else if d = '\n' then some ('\n', u, false, 2)
          else some (d, u, false, 2)
      else some ('\n', t, false, 1)
    else some (c, t, false, 1)

/-- That an entity is at a character. -/
structure At (e0 e : Entity) (c : Char) (t : Str) (ign : Bool) (n : Nat) : Prop where
  cur : e.cur = some c
  rest : unread e = t
  ign : e.ignoreLF = ign
  ended : e.ended = false
  line : e.line = e0.line + if c = '\n' then 1 else 0
  col : e.col = if c = '\n' then 0 else e0.col + n

theorem nextChar_spec (e : Entity) (he : e.ended = false) :
    match next e.ignoreLF (unread e) with
    | none => (nextChar 2 e).cur = none ∧ (nextChar 2 e).ended = true
    | some (c, t, ign, n) => At e (nextChar 2 e) c t ign n := by
  obtain ⟨f1, f2, f3⟩ := fetch_spec e
  rw [nextChar, if_neg (by simp [he])]
  rcases hf : fetch e with ⟨o, e1⟩
  rw [hf] at f1 f2 f3
  simp only at f1 f2 f3
  cases hu : unread e with
  | nil =>
    rw [hu] at f1
    simp only [List.head?_nil] at f1
    subst f1
    simp [next]
  | cons c t =>
    rw [hu] at f1 f2
    simp only [List.head?_cons, List.tail_cons] at f1 f2
    subst f1
    simp only [next]
    by_cases h1 : c = '\r'
    · rw [if_pos h1, if_pos h1]
      exact ⟨rfl, f2, rfl, by rw [← he, ← f3.ended]; rfl, by simp [nextLine, f3.line], by simp [nextLine]⟩
    · rw [if_neg h1, if_neg h1]
      by_cases h2 : c = '\n'
      · rw [if_pos h2, if_pos h2, f3.ign]
        cases hi : e.ignoreLF with
        | false =>
          simp only [Bool.false_eq_true, if_false]
          exact ⟨rfl, f2, by rw [← hi, ← f3.ign]; rfl, by rw [← he, ← f3.ended]; rfl, by simp [nextLine, f3.line],
            by simp [nextLine]⟩
        | true =>
          simp only [if_true]
          obtain ⟨g1, g2, g3⟩ := fetch_spec { e1 with cur := some '\n', ignoreLF := false }
          rw [nextChar, if_neg (by simp [f3.ended, he])]
          rcases hg : fetch { e1 with cur := some '\n', ignoreLF := false } with ⟨o2, e2⟩
          have hu2 : unread { e1 with cur := some '\n', ignoreLF := false } = t := f2
          rw [hg, hu2] at g1
          rw [hg, hu2] at g2
          rw [hg] at g3
          simp only at g1 g2 g3
          have gi := g3.ign
          have gl := g3.line
          have gc := g3.col
          have ge := g3.ended
          simp only at gi gl gc ge
          rw [f3.line] at gl
          rw [f3.col] at gc
          rw [f3.ended, he] at ge
          cases t with
          | nil =>
            simp only [List.head?_nil] at g1
            subst g1
            simp
          | cons d u =>
            simp only [List.head?_cons, List.tail_cons] at g1 g2
            subst g1
            simp only
            by_cases h3 : d = '\r'
            · rw [if_pos h3, if_pos h3]
              exact ⟨rfl, g2, rfl, ge, by simp [nextLine, gl], by simp [nextLine]⟩
            · rw [if_neg h3, if_neg h3]
              by_cases h4 : d = '\n'
              · rw [if_pos h4, if_pos h4, gi]
                simp only [Bool.false_eq_true, if_false]
                exact ⟨rfl, g2, by first | rfl | exact gi, ge, by simp [nextLine, gl], by simp [nextLine]⟩
              · rw [if_neg h4, if_neg h4]
                exact ⟨rfl, g2, rfl, ge, by simp [gl, h4], by simp [gc, h4]⟩
      · rw [if_neg h2, if_neg h2]
        exact ⟨rfl, f2, rfl, by rw [← he, ← f3.ended], by simp [f3.line, h2], by simp [f3.col, h2]⟩

/-! ## All characters -/

/-- The text after a carriage return (if `ign`) or another character. -/
def left (ign : Bool) (t : Str) : Str :=
  match ign, t with
  | true, '\n' :: u => normalise u
  | _, t => normalise t

theorem normalise_cr (t : Str) : normalise ('\r' :: t) = '\n' :: left true t := by
  cases t with
  | nil => rfl
  | cons c cs =>
    by_cases hc : c = '\n'
    · subst hc; rfl
    · have hl : left true (c :: cs) = normalise (c :: cs) := by
        unfold left
        split
        · rename_i he; cases he; exact absurd rfl hc
        · rfl
      rw [hl, normalise.eq_def]
      split
      · rename_i he; cases he
      · rename_i he; cases he; exact absurd rfl hc
      · rename_i he; cases he; rfl
      · rename_i hx he
        cases he
        exact absurd rfl hx

theorem normalise_other {c : Char} (t : Str) (h : c ≠ '\r') : normalise (c :: t) = c :: normalise t := by
  rw [normalise.eq_def]
  split
  · rename_i he; cases he
  · rename_i he; cases he; exact absurd rfl h
  · rename_i he; cases he; exact absurd rfl h
  · rename_i he; cases he; rfl

theorem left_false (t : Str) : left false t = normalise t := by
  unfold left
  split
  · rename_i h; cases h
  · rfl

theorem left_next (ign : Bool) (t : Str) :
    left ign t = match next ign t with
      | none => []
      | some (c, u, ign', _) => c :: left ign' u := by
  cases t with
  | nil => cases ign <;> rfl
  | cons c t =>
    simp only [next]
    by_cases h1 : c = '\r'
    · subst h1
      rw [if_pos rfl]
      have : left ign ('\r' :: t) = normalise ('\r' :: t) := by cases ign <;> rfl
      rw [this]
      exact normalise_cr t
    · rw [if_neg h1]
      by_cases h2 : c = '\n'
      · subst h2
        rw [if_pos rfl]
        cases ign with
        | false =>
          simp only [Bool.false_eq_true, if_false]
          rw [left_false, left_false]
          exact normalise_other t h1
        | true =>
          simp only [if_true]
          show normalise t = _
          cases t with
          | nil => rfl
          | cons d u =>
            simp only
            by_cases h3 : d = '\r'
            · subst h3
              rw [if_pos rfl]
              exact normalise_cr u
            · rw [if_neg h3, normalise_other u h3]
              by_cases h4 : d = '\n'
              · subst h4; rw [if_pos rfl]; simp only [left_false]
              · rw [if_neg h4]; simp only [left_false]
      · rw [if_neg h2]
        have : left ign (c :: t) = normalise (c :: t) := by
          unfold left
          split
          · rename_i he; cases he; exact absurd rfl h2
          · rfl
        rw [this, normalise_other t h1]
        simp only [left_false]

theorem next_shorter (ign : Bool) (t : Str) (c : Char) (u : Str) (i : Bool) (n : Nat)
    (h : next ign t = some (c, u, i, n)) : u.length < t.length := by
  cases t with
  | nil => cases h
  | cons d t =>
    simp only [next] at h
    split at h
    · cases h; simp
    · split at h
      · split at h
        · cases t with
          | nil => cases h
          | cons x t =>
            simp only at h
            split at h
            · cases h; simp; omega
            · split at h <;> cases h <;> simp <;> omega
        · cases h; simp
      · cases h; simp

theorem seen_spec : ∀ (f : Nat) (e : Entity) (c : Char), e.cur = some c → e.ended = false →
    (unread e).length < f →
    (seen f e).map (·.1) = c :: left e.ignoreLF (unread e) ∧
    ∀ i c' l p, (seen f e)[i]? = some (c', l, p) →
      l = e.line + ((left e.ignoreLF (unread e)).take i).count '\n' := by
  intro f
  induction f with
  | zero => intro e c _ _ h; omega
  | succ f ih =>
    intro e c hc he hf
    have hs := nextChar_spec e he
    rw [left_next]
    simp only [seen, hc]
    cases hn : next e.ignoreLF (unread e) with
    | none =>
      rw [hn] at hs
      simp only at hs
      have h0 : seen f (nextChar 2 e) = [] := by
        cases f with
        | zero => rfl
        | succ f => simp only [seen, hs.1]
      rw [h0]
      refine ⟨rfl, ?_⟩
      intro i c' l p hi
      cases i with
      | zero => cases hi; simp
      | succ i => simp at hi
    | some x =>
      obtain ⟨d, t, ign, n⟩ := x
      rw [hn] at hs
      simp only at hs
      have hlt := next_shorter _ _ _ _ _ _ hn
      obtain ⟨e1, e2⟩ := ih (nextChar 2 e) d hs.cur hs.ended (by rw [hs.rest]; omega)
      rw [hs.rest, hs.ign] at e1 e2
      refine ⟨by simp [e1], ?_⟩
      intro i c' l p hi
      cases i with
      | zero => cases hi; simp
      | succ i =>
        simp only [List.getElem?_cons_succ] at hi
        rw [e2 i c' l p hi, hs.line]
        simp only [List.take_succ_cons, List.count_cons]
        by_cases h : d = '\n' <;> simp [h] <;> omega

/-- C376 and C377: a parser sees the characters of the text with its ends of lines as XML says,
however the text arrives in pieces; and each character has the number of its line (that of a line
feed is the one that it starts). -/
theorem xml_lines (data : Str) (plan : List Nat) :
    (readAll data plan).map (·.1) = normalise data ∧
    ∀ i c l p, (readAll data plan)[i]? = some (c, l, p) →
      l = 1 + ((normalise data).take (i + 1)).count '\n' := by
  have hs := nextChar_spec ⟨⟨data, plan⟩, [], 0, none, false, false, 1, 0⟩ rfl
  have hu : unread ⟨⟨data, plan⟩, [], 0, none, false, false, 1, 0⟩ = data := rfl
  rw [hu] at hs
  have hl := left_next false data
  rw [left_false] at hl
  rw [hl]
  unfold readAll start
  simp only at hs
  cases hn : next false data with
  | none =>
    rw [hn] at hs
    simp only at hs
    simp only [seen, hs.1]
    exact ⟨rfl, fun i c l p h => by simp at h⟩
  | some x =>
    obtain ⟨d, t, ign, n⟩ := x
    rw [hn] at hs
    simp only at hs
    have hlt := next_shorter _ _ _ _ _ _ hn
    obtain ⟨e1, e2⟩ := seen_spec (data.length + 1) _ d hs.cur hs.ended (by rw [hs.rest]; omega)
    rw [hs.rest, hs.ign] at e1 e2
    refine ⟨e1, ?_⟩
    intro i c l p hi
    rw [e2 i c l p hi, hs.line]
    simp only [List.take_succ_cons, List.count_cons]
    by_cases h : d = '\n' <;> simp [h] <;> omega

/-- The position of the last character of a text in its line: how many characters there are from the
last line feed, without it. -/
def column (t : Str) : Nat := (t.reverse.takeWhile (· ≠ '\n')).length

theorem column_snoc (t : Str) (d : Char) : column (t ++ [d]) = if d = '\n' then 0 else column t + 1 := by
  unfold column
  by_cases h : d = '\n' <;> simp [h]

theorem next_plain (c : Char) (t : Str) (h : c ≠ '\r') : next false (c :: t) = some (c, t, false, 1) := by
  by_cases h2 : c = '\n' <;> simp [next, h, h2]

theorem seen_columns : ∀ (f : Nat) (e : Entity) (pre : Str) (c : Char), e.cur = some c → e.ended = false →
    e.ignoreLF = false → '\r' ∉ unread e → e.col = column pre →
    ∀ i c' l p, (seen f e)[i]? = some (c', l, p) → p = column (pre ++ (unread e).take i) := by
  intro f
  induction f with
  | zero => intro e pre c _ _ _ _ _ i c' l p hi; simp [seen] at hi
  | succ f ih =>
    intro e pre c hc he hg hr hcol i c' l p hi
    simp only [seen, hc] at hi
    cases i with
    | zero => cases hi; simp [hcol]
    | succ i =>
      simp only [List.getElem?_cons_succ] at hi
      have hs := nextChar_spec e he
      rw [hg] at hs
      cases hu : unread e with
      | nil =>
        rw [hu] at hs
        simp only [next] at hs
        cases f with
        | zero => simp [seen] at hi
        | succ f => simp [seen, hs.1] at hi
      | cons d t =>
        rw [hu] at hs hr
        have hd : d ≠ '\r' := fun h => hr (by simp [h])
        rw [next_plain d t hd] at hs
        simp only at hs
        have := ih (nextChar 2 e) (pre ++ [d]) d hs.cur hs.ended hs.ign
          (by rw [hs.rest]; exact fun h => hr (by simp [h]))
          (by rw [hs.col, column_snoc, hcol]) i c' l p hi
        rw [this, hs.rest]
        simp

/-- C378 for texts without carriage returns: each character is at its position in its line. -/
theorem xml_position_partial (data : Str) (plan : List Nat) (hr : '\r' ∉ data) :
    ∀ i c l p, (readAll data plan)[i]? = some (c, l, p) → p = column (data.take (i + 1)) := by
  intro i c l p hi
  have hs := nextChar_spec ⟨⟨data, plan⟩, [], 0, none, false, false, 1, 0⟩ rfl
  have hu : unread ⟨⟨data, plan⟩, [], 0, none, false, false, 1, 0⟩ = data := rfl
  rw [hu] at hs
  unfold readAll start at hi
  simp only at hs
  cases data with
  | nil =>
    simp only [next] at hs
    simp [seen, hs.1] at hi
  | cons d t =>
    have hd : d ≠ '\r' := fun h => hr (by simp [h])
    rw [next_plain d t hd] at hs
    simp only at hs
    have := seen_columns _ _ [d] d hs.cur hs.ended hs.ign (by rw [hs.rest]; exact fun h => hr (by simp [h]))
      (by rw [hs.col]; by_cases h : d = '\n' <;> simp [column, h]) i c l p hi
    rw [this, hs.rest]
    simp

/-- A text without carriage returns, in two pieces. -/
theorem xml_position_sample : '\r' ∉ "ab\nc".toList ∧
    (readAll "ab\nc".toList [1]).map (·.2) = [(1, 1), (1, 2), (2, 0), (2, 1)] := by
  decide +kernel

/-- C378, refuted for all texts: the first character of a line is at position 1 behind a line feed,
and at position 2 behind a carriage return with a line feed. -/
theorem xml_position_refuted (c : Char) (t : Str) (plan : List Nat) (h1 : c ≠ '\r') (h2 : c ≠ '\n') :
    (readAll ('\n' :: c :: t) plan)[1]? = some (c, 2, 1) ∧
    (readAll ('\r' :: '\n' :: c :: t) plan)[1]? = some (c, 2, 2) := by
  constructor
  · have s1 := nextChar_spec ⟨⟨'\n' :: c :: t, plan⟩, [], 0, none, false, false, 1, 0⟩ rfl
    have hu : unread ⟨⟨'\n' :: c :: t, plan⟩, [], 0, none, false, false, 1, 0⟩ = '\n' :: c :: t := rfl
    rw [hu] at s1
    have n1 : next false ('\n' :: c :: t) = some ('\n', c :: t, false, 1) := rfl
    simp only [n1] at s1
    have s2 := nextChar_spec _ s1.ended
    rw [s1.rest, s1.ign] at s2
    have n2 : next false (c :: t) = some (c, t, false, 1) := by simp [next, h1, h2]
    simp only [n2] at s2
    unfold readAll start
    simp only [List.length_cons, seen, s1.cur, s2.cur, List.getElem?_cons_succ, List.getElem?_cons_zero]
    rw [s2.line, s2.col, s1.line, s1.col]
    simp [h2]
  · have s1 := nextChar_spec ⟨⟨'\r' :: '\n' :: c :: t, plan⟩, [], 0, none, false, false, 1, 0⟩ rfl
    have hu : unread ⟨⟨'\r' :: '\n' :: c :: t, plan⟩, [], 0, none, false, false, 1, 0⟩ = '\r' :: '\n' :: c :: t := rfl
    rw [hu] at s1
    have n1 : next false ('\r' :: '\n' :: c :: t) = some ('\n', '\n' :: c :: t, true, 1) := rfl
    simp only [n1] at s1
    have s2 := nextChar_spec _ s1.ended
    rw [s1.rest, s1.ign] at s2
    have n2 : next true ('\n' :: c :: t) = some (c, t, false, 2) := by simp [next, h1, h2]
    simp only [n2] at s2
    unfold readAll start
    simp only [List.length_cons, seen, s1.cur, s2.cur, List.getElem?_cons_succ, List.getElem?_cons_zero]
    rw [s2.line, s2.col, s1.line, s1.col]
    simp [h2]

/-- A concrete text in pieces that part a carriage return from its line feed. -/
theorem xml_lines_sample :
    readAll "a\r\nb\rc\n".toList [1, 0, 2] =
      [('a', 1, 1), ('\n', 2, 0), ('b', 2, 2), ('\n', 3, 0), ('c', 3, 1), ('\n', 4, 0)] := by
  decide +kernel

/-- C379: a parser of an entity in UTF-8 sees the text without one mark at its start, and no other mark
is lost. -/
theorem xml_utf8_mark (data : Str) (plan : List Nat) :
    (readAllUtf8 ('\ufeff' :: data) plan).map (·.1) = normalise data ∧
    (data.head? ≠ some '\ufeff' → (readAllUtf8 data plan).map (·.1) = normalise data) := by
  constructor
  · have hs := nextChar_spec ⟨⟨'\ufeff' :: data, plan⟩, [], 0, none, false, false, 1, 0⟩ rfl
    have hu : unread ⟨⟨'\ufeff' :: data, plan⟩, [], 0, none, false, false, 1, 0⟩ = '\ufeff' :: data := rfl
    rw [hu] at hs
    simp only [next_plain '\ufeff' data (by decide)] at hs
    unfold readAllUtf8 startUtf8 start
    simp only
    rw [if_pos hs.cur]
    have h2 := nextChar_spec _ hs.ended
    rw [hs.rest, hs.ign] at h2
    have hl := left_next false data
    rw [left_false] at hl
    rw [hl]
    cases hn : next false data with
    | none =>
      rw [hn] at h2
      simp only at h2
      simp only [seen, h2.1, List.map_nil]
    | some x =>
      obtain ⟨d, t, ign, n⟩ := x
      rw [hn] at h2
      simp only at h2
      have hlt := next_shorter _ _ _ _ _ _ hn
      obtain ⟨e1, _⟩ := seen_spec (('\ufeff' :: data).length + 1) _ d h2.cur h2.ended
        (by rw [h2.rest]; simp; omega)
      rw [h2.rest, h2.ign] at e1
      exact e1
  · intro h
    have hs := nextChar_spec ⟨⟨data, plan⟩, [], 0, none, false, false, 1, 0⟩ rfl
    have hu : unread ⟨⟨data, plan⟩, [], 0, none, false, false, 1, 0⟩ = data := rfl
    rw [hu] at hs
    have hb : (start data plan).cur ≠ some '\ufeff' := by
      unfold start
      cases data with
      | nil => simp only [next] at hs; rw [hs.1]; simp
      | cons c t =>
        by_cases hc : c = '\r'
        · subst hc
          have : next false ('\r' :: t) = some ('\n', t, true, 1) := rfl
          simp only [this] at hs
          rw [hs.cur]; decide
        · simp only [next_plain c t hc] at hs
          rw [hs.cur]
          simpa using h
    have : readAllUtf8 data plan = readAll data plan := by
      unfold readAllUtf8 startUtf8 readAll
      simp only
      rw [if_neg hb]
    rw [this]
    exact (xml_lines data plan).1

/-- A text with two marks, of which one is passed. -/
theorem xml_utf8_sample : readAllUtf8 ['\ufeff', '\ufeff', 'a'] [0, 1] = [('\ufeff', 1, 2), ('a', 1, 3)] := by
  decide +kernel

end Verif.Props.XmlLines
