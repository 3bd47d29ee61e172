import Verif.Spec.Html

/-! # C20, C21: flow grouping and embedded HTML -/

set_option linter.unusedVariables false

namespace Verif.Props

open Verif Verif.Html Verif.Spec
open Verif.XmlUtils (Token)

/-! ## C21: balanced calls -/

theorem Nested.append {a b : List Ev} (ha : Nested a) (hb : Nested b) : Nested (a ++ b) := by
  induction ha with
  | nil => exact hb
  | chars s _ ih => exact .chars s ih
  | element n h1 h2 _ ih2 =>
    rw [List.cons_append, List.append_assoc, List.cons_append]
    exact .element n h1 ih2

/-- Calls that close the open elements `st`, innermost first, with nested content in between. -/
def Pending : List Str → List Ev → Prop
  | [], es => Nested es
  | n :: st, es => ∃ a b, es = a ++ .stop n :: b ∧ Nested a ∧ Pending st b

theorem pending_prepend {st : List Str} {a es : List Ev} (ha : Nested a) (h : Pending st es) : Pending st (a ++ es) := by
  cases st with
  | nil => exact Nested.append ha h
  | cons n st =>
    obtain ⟨x, y, rfl, hx, hy⟩ := h
    exact ⟨a ++ x, y, by simp, Nested.append ha hx, hy⟩

theorem pending_closeUntil (n : Str) : ∀ (st : List Str) (es : List Ev), Pending (closeUntil n st).2 es →
    Pending st ((closeUntil n st).1 ++ es)
  | [], es, h => by simpa [closeUntil] using h
  | e :: st, es, h => by
    rw [closeUntil] at h ⊢
    split at h
    · rename_i he
      simp only [he, if_true] at h ⊢
      exact ⟨[], es, rfl, .nil, h⟩
    · rename_i he
      simp only [he, if_false] at h ⊢
      exact ⟨[], (closeUntil n st).1 ++ es, rfl, .nil, pending_closeUntil n st es h⟩

theorem pending_stops : ∀ st : List Str, Pending st (st.map Ev.stop)
  | [] => .nil
  | n :: st => ⟨[], st.map Ev.stop, rfl, .nil, pending_stops st⟩

theorem events_pending (ts : List Token) : ∀ st, Pending st (events ts st) := by
  induction ts with
  | nil => intro st; exact pending_stops st
  | cons t ts ih =>
    intro st
    cases t with
    | text s => exact pending_prepend (.chars s .nil) (ih st)
    | emptyTag n a => exact pending_prepend (Nested.element n .nil .nil) (ih st)
    | stag n a =>
      rw [events]
      split
      · exact pending_prepend (Nested.element n .nil .nil) (ih st)
      · obtain ⟨a, b, h1, h2, h3⟩ := ih (n :: st)
        rw [h1]
        cases st with
        | nil => exact Nested.element n h2 h3
        | cons m st =>
          obtain ⟨c, d, rfl, h4, h5⟩ := h3
          exact ⟨.start n :: (a ++ .stop n :: c), d, by simp, .element n h2 h4, h5⟩
    | etag n => exact pending_closeUntil n st _ (ih _)

/-- **C21 (balance).**  Whatever the tags are (unclosed, crossed, stray, self-closing), the calls made are properly
nested; every start tag and empty tag is started exactly once, in order; and the text passed on is exactly the text
of the tokens. -/
theorem html_events_nested (ts : List Token) :
    Nested (events ts []) ∧ callStarts (events ts []) = tokenStarts ts ∧ callText (events ts []) = tokenText ts := by
  refine ⟨events_pending ts [], ?_, ?_⟩
  · suffices ∀ st, callStarts (events ts st) = tokenStarts ts from this []
    have stops : ∀ (st : List Str) (es : List Ev), callStarts (st.map Ev.stop ++ es) = callStarts es := by
      intro st es
      induction st with
      | nil => rfl
      | cons n st ih => simpa [callStarts] using ih
    have cu : ∀ (n : Str) (st : List Str) (es : List Ev), callStarts ((closeUntil n st).1 ++ es) = callStarts es := by
      intro n st es
      induction st with
      | nil => rfl
      | cons e st ih =>
        rw [closeUntil]
        split
        · simp [callStarts]
        · simpa [callStarts] using ih
    induction ts with
    | nil => intro st; simpa [events, callStarts, tokenStarts] using stops st []
    | cons t ts ih =>
      intro st
      cases t with
      | text s => simpa [events, callStarts, tokenStarts] using ih st
      | emptyTag n a => simpa [events, callStarts, tokenStarts] using ih st
      | stag n a =>
        rw [events]
        split
        · simpa [callStarts, tokenStarts] using ih st
        · simpa [callStarts, tokenStarts] using ih (n :: st)
      | etag n => rw [events, cu, ih]; rfl
  · suffices ∀ st, callText (events ts st) = tokenText ts from this []
    have stops : ∀ (st : List Str), callText (st.map Ev.stop) = [] := by
      intro st
      induction st with
      | nil => rfl
      | cons n st ih => simpa [callText] using ih
    have cu : ∀ (n : Str) (st : List Str) (es : List Ev), callText ((closeUntil n st).1 ++ es) = callText es := by
      intro n st es
      induction st with
      | nil => rfl
      | cons e st ih =>
        rw [closeUntil]
        split
        · simp [callText]
        · simpa [callText] using ih
    induction ts with
    | nil => intro st; simpa [events, callText, tokenText] using stops st
    | cons t ts ih =>
      intro st
      cases t with
      | text s => simpa [events, callText, tokenText] using ih st
      | emptyTag n a => simpa [events, callText, tokenText] using ih st
      | stag n a =>
        rw [events]
        split
        · simpa [callText, tokenText] using ih st
        · simpa [callText, tokenText] using ih (n :: st)
      | etag n => rw [events, cu, ih]; rfl

example : events [.stag "p".toList [], .stag "b".toList [], .text "x".toList, .etag "p".toList, .etag "i".toList,
      .stag "br".toList []] [] =
    [.start "p".toList, .start "b".toList, .chars "x".toList, .stop "b".toList, .stop "p".toList, .start "br".toList,
     .stop "br".toList] := by decide +kernel

/-! ## C21: the elements built -/

theorem nodesText_append (a b : List Node) : nodesText (a ++ b) = nodesText a ++ nodesText b := by
  induction a with
  | nil => rfl
  | cons n a ih => simp [nodesText, ih]

/-- The names in a token list. -/
def tokenNames : List Token → List Str
  | [] => []
  | .stag n _ :: ts => n :: tokenNames ts
  | .emptyTag n _ :: ts => n :: tokenNames ts
  | .etag n :: ts => n :: tokenNames ts
  | .text _ :: ts => tokenNames ts

/-- Tags whose elements accept any content. -/
def _root_.Verif.Html.Tag.isOpen : Tag → Bool
  | .br | .img | .list _ | .table | .tbody | .tr => false
  | _ => true

/-- Text of an optional element. -/
def optText : Option Node → Str
  | some n => nodeText n
  | none => []

/-- All the text the builder holds, in document order. -/
def stText (s : St) : Str := nodesText s.out ++ nodesText s.stack.reverse ++ optText s.elem ++ s.data

/-- Names that stand for ordinary elements. -/
def plainName (n : Str) : Bool :=
  match newElement n with
  | some t => t.isOpen || t = .br || t = .img
  | none => false

theorem append_open {t : Tag} (h : t.isOpen = true) (ks : List Node) (c : Node) :
    append (.elem t ks) c = .ok (.elem t (ks ++ [c])) := by
  cases t <;> first | rfl | cases h

/-- The builder has one open element per open name, all accepting any content. -/
structure Inv (names : List Str) (s : St) : Prop where
  len : names.length = s.stack.length + (if s.elem.isSome then 1 else 0)
  none_stack : s.elem = none → s.stack = []
  opens : ∀ n ∈ s.elem.toList ++ s.stack, ∃ t ks, n = .elem t ks ∧ t.isOpen = true
  named : ∀ n ∈ names, Py.lower n ≠ "qtihtml".toList

theorem newElement_qtihtml (n : Str) (h : Py.lower n = "qtihtml".toList) : newElement n = none := by
  unfold newElement
  rw [h]
  simp [simpleInlineNames]

theorem start_ok {names : List Str} {s : St} (hi : Inv names s) (n : Str) {t : Tag} (ht : newElement n = some t) :
    ∃ s', startElement s n = .ok s' ∧ stText s' = stText s ∧ s'.data = [] ∧ s'.elem = some (.elem t []) ∧
      (s.elem = none → s'.stack = []) ∧
      (s.elem ≠ none → s'.stack.length = s.stack.length + 1) ∧
      ∀ m ∈ s'.stack, ∃ t ks, m = .elem t ks ∧ t.isOpen = true := by
  obtain ⟨o, st, e, d⟩ := s
  have hno := hi.none_stack
  have hop := hi.opens
  simp only [startElement, ht] at *
  cases e with
  | none =>
    have hst : st = [] := hno rfl
    subst hst
    by_cases hd : d = []
    · subst hd
      exact ⟨_, rfl, by simp [stText, optText, nodesText, nodeText], rfl, rfl, fun _ => rfl, fun h => absurd rfl h,
        by simp⟩
    · refine ⟨{ out := o ++ [.text d], stack := [], elem := some (.elem t []), data := [] },
        by simp [hd, bind, Except.bind], ?_, rfl, rfl, fun _ => rfl, fun h => absurd rfl h, by simp⟩
      simp [stText, optText, nodesText, nodeText, nodesText_append]
  | some e =>
    obtain ⟨t', ks, rfl, ht'⟩ := hop e (by simp)
    by_cases hd : d = []
    · subst hd
      refine ⟨_, rfl, by simp [stText, optText, nodesText, nodeText, nodesText_append], rfl, rfl, fun h => (by cases h),
        fun _ => rfl, ?_⟩
      intro m hm
      exact hop m (by simpa using hm)
    · refine ⟨{ out := o, stack := .elem t' (ks ++ [.text d]) :: st, elem := some (.elem t []), data := [] },
        by simp [hd, bind, Except.bind, append_open ht'], ?_, rfl, rfl, fun h => (by cases h), fun _ => rfl, ?_⟩
      · simp [stText, optText, nodesText, nodeText, nodesText_append]
      · intro m hm
        rcases List.mem_cons.1 hm with rfl | hm
        · exact ⟨_, _, rfl, ht'⟩
        · exact hop m (by simp [hm])

theorem end_ok {names : List Str} {s : St} (n m : Str) (hi : Inv (n :: names) s) (hm : Py.lower m ≠ "qtihtml".toList) :
    ∃ s', endElement s m = .ok s' ∧ stText s' = stText s ∧ Inv names s' := by
  obtain ⟨o, st, e, d⟩ := s
  obtain ⟨hl, hno, hop, hnm⟩ := hi
  simp only at hl hno hop
  cases e with
  | none => rw [hno rfl] at hl; simp at hl
  | some e =>
    obtain ⟨t', ks, rfl, ht'⟩ := hop e (by simp)
    have hkd : ∃ ks', nodesText ks' = nodesText ks ++ d ∧
        (if d ≠ [] then append (.elem t' ks) (.text d) >>= fun e =>
            (.ok { out := o, stack := st, elem := some e, data := [] } : Except Err St)
          else .ok { out := o, stack := st, elem := some (.elem t' ks), data := d }) =
          .ok { out := o, stack := st, elem := some (.elem t' ks'), data := [] } := by
      by_cases hd : d = []
      · exact ⟨ks, by simp [hd], by simp [hd]⟩
      · exact ⟨ks ++ [.text d], by simp [nodesText_append, nodesText, nodeText], by simp [hd, append_open ht', bind, Except.bind]⟩
    obtain ⟨ks', hks, hap⟩ := hkd
    cases st with
    | nil =>
      refine ⟨⟨o ++ [.elem t' ks'], [], none, []⟩, ?_, ?_,
        ⟨by simpa using hl, fun _ => rfl, by simp, fun x hx => hnm x (by simp [hx])⟩⟩
      · simp only [endElement, hm, if_false, hap]; rfl
      · simp [stText, optText, nodesText, nodeText, nodesText_append, hks]
    | cons p rest =>
      obtain ⟨tp, kp, rfl, htp⟩ := hop p (by simp)
      refine ⟨⟨o, rest, some (.elem tp (kp ++ [.elem t' ks'])), []⟩, ?_, ?_,
        ⟨by simpa using hl, fun h => (by cases h), ?_, fun x hx => hnm x (by simp [hx])⟩⟩
      · simp only [endElement, hm, if_false, hap]; simp only [bind, Except.bind, append_open htp]
      · simp [stText, optText, nodesText, nodeText, nodesText_append, hks]
      · intro x hx
        simp only [Option.toList_some, List.cons_append, List.nil_append, List.mem_cons] at hx
        rcases hx with rfl | hx
        · exact ⟨_, _, rfl, htp⟩
        · exact hop x (by simp [hx])

theorem calls_append (a b : List Ev) : ∀ s, calls (a ++ b) s = calls a s >>= calls b := by
  induction a with
  | nil => intro s; rfl
  | cons e a ih =>
    intro s
    simp only [List.cons_append, calls]
    cases call s e with
    | error x => rfl
    | ok s' => exact ih s'

theorem stops_ok : ∀ (names : List Str) {s : St}, Inv names s →
    ∃ s', calls (names.map Ev.stop) s = .ok s' ∧ stText s' = stText s ∧ Inv [] s'
  | [], s, hi => ⟨s, rfl, rfl, hi⟩
  | n :: names, s, hi => by
    obtain ⟨s', h1, h2, h3⟩ := end_ok n n hi (hi.named n (by simp))
    obtain ⟨s'', h4, h5, h6⟩ := stops_ok names h3
    refine ⟨s'', ?_, by rw [h5, h2], h6⟩
    simp only [List.map_cons, calls, call, h1, bind, Except.bind]
    exact h4

theorem closeUntil_ok (n : Str) : ∀ (names : List Str) {s : St}, Inv names s →
    ∃ s', calls (closeUntil n names).1 s = .ok s' ∧ stText s' = stText s ∧ Inv (closeUntil n names).2 s'
  | [], s, hi => ⟨s, rfl, rfl, hi⟩
  | e :: names, s, hi => by
    obtain ⟨s', h1, h2, h3⟩ := end_ok e e hi (hi.named e (by simp))
    rw [closeUntil]
    split
    · refine ⟨s', ?_, h2, h3⟩
      simp only [calls, call, h1, bind, Except.bind]
    · obtain ⟨s'', h4, h5, h6⟩ := closeUntil_ok n names h3
      refine ⟨s'', ?_, by rw [h5, h2], h6⟩
      simp only [calls, call, h1, bind, Except.bind]
      exact h4

theorem plain_not_qtihtml {n : Str} (h : plainName n = true) : Py.lower n ≠ "qtihtml".toList := by
  intro e
  unfold plainName at h
  rw [newElement_qtihtml n e] at h
  cases h

theorem ite_ne {α : Type} {c : Prop} [Decidable c] {a b x : α} (h : (if c then a else b) = x) (ha : a ≠ x) : b = x := by
  by_cases hc : c
  · rw [if_pos hc] at h; exact absurd h ha
  · rwa [if_neg hc] at h

theorem newElement_void {n : Str} {t : Tag} (h : newElement n = some t) (ht : t = .br ∨ t = .img) : isVoid n = true := by
  unfold newElement at h
  dsimp only at h
  unfold isVoid
  by_cases h1 : Py.lower n = "br".toList
  · rw [h1]; decide
  · by_cases h2 : Py.lower n = "img".toList
    · rw [h2]; decide
    · exfalso
      rw [if_neg h1, if_neg h2] at h
      rcases ht with rfl | rfl
      all_goals
        iterate 12 replace h := ite_ne h (fun h => by cases h)
        cases h

/-- Starting and immediately ending an element. -/
theorem start_stop_ok {names : List Str} {s : St} (hi : Inv names s) (n : Str) {t : Tag} (ht : newElement n = some t)
    (hq : Py.lower n ≠ "qtihtml".toList) :
    ∃ s', calls [.start n, .stop n] s = .ok s' ∧ stText s' = stText s ∧ Inv names s' := by
  obtain ⟨s1, h1, h2, h3, h4, h5, h6, h7⟩ := start_ok hi n ht
  obtain ⟨o1, st1, e1, d1⟩ := s1
  simp only at h3 h4 h5 h6 h7
  subst h3 h4
  have hcall : ∀ s', endElement ⟨o1, st1, some (.elem t []), []⟩ n = .ok s' → calls [.start n, .stop n] s = .ok s' := by
    intro s' hs
    simp only [calls, call, h1, bind, Except.bind, hs]
  have hl := hi.len
  cases he : s.elem with
  | none =>
    have hst := h5 he
    subst hst
    refine ⟨⟨o1 ++ [.elem t []], [], none, []⟩, hcall _ ?_, ?_, ?_⟩
    · unfold endElement; rw [if_neg hq]; rfl
    · rw [← h2]; simp [stText, optText, nodeText, nodesText_append, nodesText]
    · rw [he, hi.none_stack he] at hl
      exact ⟨by simpa using hl, fun _ => rfl, by simp, hi.named⟩
  | some e =>
    have hst := h6 (by simp [he])
    cases st1 with
    | nil => simp at hst
    | cons p rest =>
      obtain ⟨tp, kp, rfl, htp⟩ := h7 p (by simp)
      refine ⟨⟨o1, rest, some (.elem tp (kp ++ [.elem t []])), []⟩, hcall _ ?_, ?_, ?_⟩
      · unfold endElement; rw [if_neg hq]
        show (append (.elem tp kp) (.elem t []) >>= fun p => _) = _
        rw [append_open htp]; rfl
      · rw [← h2]; simp [stText, optText, nodeText, nodesText_append, nodesText]
      · rw [he] at hl
        refine ⟨?_, fun h => (by cases h), ?_, hi.named⟩
        · simp only [List.length_cons, Option.isSome_some, if_true] at hst hl ⊢; omega
        · intro x hx
          simp only [Option.toList_some, List.cons_append, List.nil_append, List.mem_cons] at hx
          rcases hx with rfl | hx
          · exact ⟨_, _, rfl, htp⟩
          · exact h7 x (by simp [hx])

theorem events_ok (ts : List Token) : ∀ (names : List Str) {s : St}, (∀ n ∈ tokenNames ts, plainName n = true) →
    Inv names s → ∃ s', calls (events ts names) s = .ok s' ∧ stText s' = stText s ++ tokenText ts ∧ Inv [] s' := by
  induction ts with
  | nil =>
    intro names s _ hi
    obtain ⟨s', h1, h2, h3⟩ := stops_ok names hi
    exact ⟨s', h1, by simp [h2, tokenText], h3⟩
  | cons t ts ih =>
    intro names s hp hi
    cases t with
    | text c =>
      have hi' : Inv names { s with data := s.data ++ c } := ⟨hi.len, hi.none_stack, hi.opens, hi.named⟩
      obtain ⟨s', h1, h2, h3⟩ := ih names (by simpa [tokenNames] using hp) hi'
      refine ⟨s', ?_, ?_, h3⟩
      · simp only [events, calls, call, bind, Except.bind]; exact h1
      · rw [h2]; simp [stText, tokenText]
    | emptyTag n a =>
      simp only [tokenNames, List.mem_cons, forall_eq_or_imp] at hp
      obtain ⟨t, ht⟩ : ∃ t, newElement n = some t := by
        have := hp.1; unfold plainName at this
        cases h : newElement n with
        | none => rw [h] at this; cases this
        | some t => exact ⟨t, rfl⟩
      obtain ⟨s1, g1, g2, g3⟩ := start_stop_ok hi n ht (plain_not_qtihtml hp.1)
      obtain ⟨s', h1, h2, h3⟩ := ih names hp.2 g3
      refine ⟨s', ?_, by rw [h2, g2]; rfl, h3⟩
      rw [events, show Ev.start n :: Ev.stop n :: events ts names = [.start n, .stop n] ++ events ts names from rfl,
        calls_append, g1]
      exact h1
    | stag n a =>
      simp only [tokenNames, List.mem_cons, forall_eq_or_imp] at hp
      obtain ⟨t, ht⟩ : ∃ t, newElement n = some t := by
        have := hp.1; unfold plainName at this
        cases h : newElement n with
        | none => rw [h] at this; cases this
        | some t => exact ⟨t, rfl⟩
      rw [events]
      by_cases hv : isVoid n = true
      · rw [if_pos hv]
        obtain ⟨s1, g1, g2, g3⟩ := start_stop_ok hi n ht (plain_not_qtihtml hp.1)
        obtain ⟨s', h1, h2, h3⟩ := ih names hp.2 g3
        refine ⟨s', ?_, by rw [h2, g2]; rfl, h3⟩
        rw [show Ev.start n :: Ev.stop n :: events ts names = [.start n, .stop n] ++ events ts names from rfl,
          calls_append, g1]
        exact h1
      · rw [if_neg hv]
        have hop : t.isOpen = true := by
          have := hp.1; unfold plainName at this
          rw [ht] at this
          simp only [Bool.or_eq_true, decide_eq_true_eq] at this
          rcases this with (h | h) | h
          · exact h
          · exact absurd (newElement_void ht (Or.inl h)) hv
          · exact absurd (newElement_void ht (Or.inr h)) hv
        obtain ⟨s1, g1, g2, g3, g4, g5, g6, g7⟩ := start_ok hi n ht
        have hi1 : Inv (n :: names) s1 := by
          have hl := hi.len
          refine ⟨?_, fun h => (by rw [g4] at h; cases h), ?_, ?_⟩
          · rw [g4]
            cases he : s.elem with
            | none => rw [he, hi.none_stack he] at hl; rw [g5 he]; simp at hl ⊢; exact hl
            | some e => rw [he] at hl; rw [g6 (by simp [he])]; simp at hl ⊢; omega
          · rw [g4]
            intro x hx
            simp only [Option.toList_some, List.cons_append, List.nil_append, List.mem_cons] at hx
            rcases hx with rfl | hx
            · exact ⟨_, _, rfl, hop⟩
            · exact g7 x hx
          · intro x hx
            rcases List.mem_cons.1 hx with rfl | hx
            · exact plain_not_qtihtml hp.1
            · exact hi.named x hx
        obtain ⟨s', h1, h2, h3⟩ := ih (n :: names) hp.2 hi1
        refine ⟨s', ?_, by rw [h2, g2]; rfl, h3⟩
        simp only [calls, call, g1, bind, Except.bind]
        exact h1
    | etag n =>
      simp only [tokenNames, List.mem_cons, forall_eq_or_imp] at hp
      obtain ⟨s1, g1, g2, g3⟩ := closeUntil_ok n names hi
      obtain ⟨s', h1, h2, h3⟩ := ih _ hp.2 g3
      refine ⟨s', ?_, by rw [h2, g2]; rfl, h3⟩
      rw [events, calls_append, g1]
      exact h1

/-- **C21 (elements, guarded).**  For embedded HTML whose tags are ordinary elements (everything except lists, tables and
`qtihtml`), however badly the tags are nested, building the elements succeeds and the text of the result, in
document order, is exactly the text of the source. -/
theorem html_text_kept_partial (ts : List Token) (h : ∀ n ∈ tokenNames ts, plainName n = true) :
    ∃ out, makeText ts = .ok out ∧ nodesText out = tokenText ts := by
  obtain ⟨s, h1, h2, h3⟩ := events_ok ts [] (s := {}) h ⟨rfl, fun _ => rfl, by simp, by simp⟩
  have hst : s.elem = none := by
    have := h3.len
    cases he : s.elem with
    | none => rfl
    | some e => rw [he] at this; simp at this
  have hss := h3.none_stack hst
  have ht : stText s = nodesText s.out ++ s.data := by simp [stText, hst, hss, optText, nodesText]
  have h2 : nodesText s.out ++ s.data = tokenText ts := by
    rw [← ht, h2]; rfl
  unfold makeText
  rw [h1]
  have hq : Py.lower "qtihtml".toList = "qtihtml".toList := by decide +kernel
  by_cases hd : s.data = []
  · refine ⟨s.out, ?_, ?_⟩
    · show (endElement s _ >>= fun s => _) = _
      unfold endElement; rw [if_pos hq, if_neg (by simpa using hd)]; rfl
    rw [hd] at h2; simpa using h2
  · refine ⟨s.out ++ [.text s.data], ?_, ?_⟩
    · show (endElement s _ >>= fun s => _) = _
      unfold endElement; rw [if_pos hq, if_pos hd]; rfl
    rw [nodesText_append]; simpa [nodesText, nodeText] using h2

example : plainName "P".toList = true ∧ plainName "font".toList = true ∧ plainName "br".toList = true ∧
    plainName "li".toList = true ∧ plainName "ul".toList = false := by decide +kernel

/-- The outcome of `makeText` seen as text only. -/
def madeText (ts : List Token) : Except Err Str := (makeText ts).map nodesText

/-- **C21 refuted (text order).**  A `qtihtml` element inside another element moves text to the front. -/
theorem html_text_reordered :
    madeText [.stag "p".toList [], .text "1".toList, .stag "b".toList [], .text "2".toList, .etag "b".toList,
      .stag "qtihtml".toList [], .text "3".toList, .etag "qtihtml".toList, .etag "p".toList] =
    .ok "312".toList := by decide +kernel

/-- **C21 refuted (text order).**  A table row after a second table body is moved into the first body. -/
theorem html_rows_reordered :
    madeText ([.stag "table".toList []] ++
      [.stag "tbody".toList [], .stag "tr".toList [], .stag "td".toList [], .text "1".toList, .etag "td".toList,
       .etag "tr".toList, .etag "tbody".toList] ++
      [.stag "tbody".toList [], .stag "tr".toList [], .stag "td".toList [], .text "2".toList, .etag "td".toList,
       .etag "tr".toList, .etag "tbody".toList] ++
      [.stag "tr".toList [], .stag "td".toList [], .text "3".toList, .etag "table".toList]) =
    .ok "132".toList := by decide +kernel

/-- **C21 refuted (failure).**  Text directly inside a list makes the conversion fail. -/
theorem html_list_text_fails :
    madeText [.stag "ul".toList [], .text "x".toList, .etag "ul".toList] = .error .assertionError := by decide +kernel

/-! ## C20: flow grouping -/

theorem piecesL_append {α} (a b : List (FNode α)) : piecesL (a ++ b) = piecesL a ++ piecesL b := by
  induction a with
  | nil => rfl
  | cons k a ih => simp [piecesL, ih]

theorem group_pieces {α} (cs : List (FNode α)) : ∀ para, piecesL (group cs para) = piecesL (para.getD []) ++ piecesL cs := by
  induction cs with
  | nil => intro para; cases para <;> simp [group, piecesL, pieces]
  | cons c cs ih =>
    intro para
    unfold group
    split
    · rw [ih]; simp [piecesL_append, piecesL]
    · cases para <;> simp [piecesL, pieces, ih]

/-- **C20 (content).**  Closing a flow keeps every piece of content, once and in order, whatever the class, level and
children. -/
theorem flow_content_kept {α} (fc : Option Str) (lvl : Nat) (cs : List (FNode α)) :
    piecesL (closeFlow fc lvl cs) = piecesL cs := by
  unfold closeFlow
  have hg : piecesL (group cs none) = piecesL cs := by rw [group_pieces]; rfl
  split
  · simp [piecesL, pieces]
  · split
    · simp [piecesL, pieces, hg]
    · split
      · simp [piecesL, pieces, hg]
      · exact hg

theorem group_mem {α} (cs : List (FNode α)) : ∀ para, (∀ ks, para = some ks → ks ≠ [] ∧ ∀ k ∈ ks, k ∈ cs.filter FNode.isInline ∨ k.isInline = true) →
    ∀ x ∈ group cs para, (x ∈ cs ∧ x.isInline = false) ∨
      ∃ ks, x = .p none ks ∧ ks ≠ [] ∧ ∀ k ∈ ks, k.isInline = true := by
  induction cs with
  | nil =>
    intro para hp x hx
    cases para with
    | none => simp [group] at hx
    | some ks =>
      simp only [group, List.mem_singleton] at hx
      obtain ⟨h1, h2⟩ := hp ks rfl
      exact Or.inr ⟨ks, hx, h1, fun k hk => by simpa using h2 k hk⟩
  | cons c cs ih =>
    intro para hp x hx
    unfold group at hx
    split at hx
    · rename_i hc
      rcases ih _ (by
        intro ks hks
        injection hks with hks
        subst hks
        refine ⟨by simp, fun k hk => Or.inr ?_⟩
        rcases List.mem_append.1 hk with hk | hk
        · cases para with
          | none => simp at hk
          | some ks =>
            rcases (hp ks rfl).2 k hk with h | h
            · exact (List.mem_filter.1 h).2
            · exact h
        · simp at hk; subst hk; exact hc) x hx with h | h
      · exact Or.inl ⟨List.mem_cons_of_mem _ h.1, h.2⟩
      · exact Or.inr h
    · rename_i hc
      have hrec : ∀ y ∈ group cs none, (y ∈ c :: cs ∧ y.isInline = false) ∨
          ∃ ks, y = .p none ks ∧ ks ≠ [] ∧ ∀ k ∈ ks, k.isInline = true := by
        intro y hy
        rcases ih none (fun ks h => by cases h) y hy with h | h
        · exact Or.inl ⟨List.mem_cons_of_mem _ h.1, h.2⟩
        · exact Or.inr h
      have hcx : (c ∈ c :: cs ∧ c.isInline = false) := ⟨by simp, by simpa using hc⟩
      cases para with
      | none =>
        simp only [List.mem_cons] at hx
        rcases hx with rfl | hx
        · exact Or.inl hcx
        · exact hrec x hx
      | some ks =>
        simp only [List.mem_cons] at hx
        obtain ⟨h1, h2⟩ := hp ks rfl
        rcases hx with rfl | rfl | hx
        · refine Or.inr ⟨ks, rfl, h1, fun k hk => ?_⟩
          rcases h2 k hk with h | h
          · exact (List.mem_filter.1 h).2
          · exact h
        · exact Or.inl hcx
        · exact hrec x hx

/-- A block-level child produced by the grouping: a block that was there, or a new paragraph that is not empty and
contains only inline content. -/
def GoodBlock {α} (cs : List (FNode α)) (x : FNode α) : Prop :=
  (x ∈ cs ∧ x.isInline = false) ∨
    ∃ cls ks, x = .p cls ks ∧ ks ≠ [] ∧ ∀ k ∈ ks, k.isInline = true

/-- **C20 (structure, guarded).**  For a flow with at least one child, everything appended to the parent is a good block,
or a single division containing only good blocks: no loose inline content is left at block level and no empty
paragraph is created. -/
theorem flow_structure_partial {α} (fc : Option Str) (lvl : Nat) (cs : List (FNode α)) (h : cs ≠ []) :
    (∀ x ∈ closeFlow fc lvl cs, GoodBlock cs x) ∨
    ∃ cls ks, closeFlow fc lvl cs = [.div cls ks] ∧ ∀ x ∈ ks, GoodBlock cs x := by
  have hg : ∀ x ∈ group cs none, GoodBlock cs x := by
    intro x hx
    rcases group_mem cs none (fun ks h => by cases h) x hx with h | ⟨ks, h1, h2⟩
    · exact Or.inl h
    · exact Or.inr ⟨none, ks, h1, h2⟩
  unfold closeFlow
  split
  · rename_i hall
    left
    intro x hx
    simp at hx
    exact Or.inr ⟨fc, cs, hx, h, List.all_eq_true.1 hall⟩
  · split
    · exact Or.inr ⟨_, _, rfl, hg⟩
    · split
      · exact Or.inr ⟨_, _, rfl, hg⟩
      · exact Or.inl hg

/-- **C20 refuted.**  A flow without children becomes an empty paragraph. -/
theorem empty_flow_makes_paragraph (fc : Option Str) (lvl : Nat) : closeFlow (α := Nat) fc lvl [] = [.p fc []] := rfl

example : closeFlow none 0 [.piece true 1, .piece true 2, .piece false 3, .piece true 4] =
    [.p none [.piece true 1, .piece true 2], .piece false 3, .p none [.piece true 4]] := rfl

end Verif.Props
