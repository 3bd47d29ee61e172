import Verif.Props.PyXmlSound
import Verif.Props.PyXmlWrite

/-!
# What does not survive writing, and the values of elements
-/

namespace Verif.Props

open Verif Verif.Names Verif.Spec Verif.PyXml
open Verif.Props.PX (flat)
open Verif.Props.PX.flat (flatAll)
open PX

namespace PX

theorem reads_of {n : Nat} {s m d : Str} {as : List (Str × Str)} (h : (match PyXml.read n s with
    | some (.ok (.elem m' as' [.text d'])) => decide (m' = m ∧ as' = as ∧ d' = d)
    | _ => false) = true) : PyXml.read n s = some (.ok (.elem m as [.text d])) := by
  split at h
  · rename_i e
    obtain ⟨rfl, rfl, rfl⟩ := of_decide_eq_true h
    exact e
  · cases h

theorem reads_empty {n : Nat} {s m : Str} {as : List (Str × Str)} (h : (match PyXml.read n s with
    | some (.ok (.elem m' as' [])) => decide (m' = m ∧ as' = as)
    | _ => false) = true) : PyXml.read n s = some (.ok (.elem m as [])) := by
  split at h
  · rename_i e
    obtain ⟨rfl, rfl⟩ := of_decide_eq_true h
    exact e
  · cases h

end PX

/-- **Tabs and line feeds in attribute values do not survive**: they are written as they are and read back as spaces. -/
theorem py_xml_attributes_refuted :
    PyXml.read 200 (writeDocument stdEscape (.elem ['a'] [(['b'], ['x', '\t', 'y', '\n'])] [])) =
      some (.ok (.elem ['a'] [(['b'], ['x', ' ', 'y', ' '])] [])) :=
  reads_empty (by decide +kernel)

/-- **An empty value does not survive**: it is read back as a space. -/
theorem py_xml_empty_value_refuted :
    PyXml.read 200 (writeDocument stdEscape (.elem ['a'] [] (setValue [] (some [])))) =
      some (.ok (.elem ['a'] [] [.text [' ']])) ∧
    getValue false [.text [' ']] = .ok [' '] ∧ getValue false (setValue [] (some [])) = .ok [] :=
  ⟨reads_of (by decide +kernel), rfl, rfl⟩

/-- **Characters that XML does not allow are written**: the document is not well-formed. -/
theorem py_xml_control_refuted :
    ∀ root, ¬ XWellFormed (writeDocument stdEscape (.elem ['a'] [] [.text ['\x01']])) root := by
  intro root h
  exact absurd (wellFormed_chars h '\x01' (by decide +kernel)) (by decide +kernel)

/-- **What is written for a CDATA section is refused by the parser**, whatever the data and whatever follows it. -/
theorem py_xml_cdsect_refused (s rest : Str) (n : Nat) : PyXml.content (n + 1) (escapeCDSect s ++ rest) = some bad := by
  have key : ∀ x : Str, content (n + 1) ("<!CDATA[[".toList ++ x) = some bad := by
    intro x
    have e : "<!CDATA[[".toList ++ x = '<' :: '!' :: 'C' :: 'D' :: 'A' :: 'T' :: 'A' :: '[' :: '[' :: x := by simp
    rw [e, content, if_pos rfl]
    rfl
  have hne : ∀ s, splitCDEnd s ≠ [] := by
    intro s
    rw [splitCDEnd.eq_def]
    split
    · simp
    · simp
    · split <;> simp
  unfold escapeCDSect
  split
  · rename_i e
    exact absurd e (hne s)
  · simp only [List.append_assoc]
    exact key _

namespace PX

/-- ASCII characters only. -/
def Ascii (s : Str) : Prop := ∀ c ∈ s, c.toNat < 128

theorem ascii_app {a b : Str} (ha : Ascii a) (hb : Ascii b) : Ascii (a ++ b) := by
  intro c hc
  rcases List.mem_append.1 hc with h | h
  · exact ha c h
  · exact hb c h

theorem ascii_hexDigits (k n : Nat) : Ascii (hexDigits k n) := by
  induction k generalizing n with
  | zero => intro c hc; simp [hexDigits] at hc
  | succ k ih =>
    rw [hexDigits]
    refine ascii_app (ih _) ?_
    intro c hc
    rw [List.mem_singleton.1 hc]
    have := hexDigit_digit (n % 16) (Nat.mod_lt _ (by omega))
    generalize PyXml.hexDigit (n % 16) = d at *
    generalize n % 16 = v at this
    cases this <;> omega

theorem ascii_lit (s : Str) (h : s.all (fun c => decide (c.toNat < 128)) = true) : Ascii s := by
  intro c hc
  simpa using List.all_eq_true.1 h c hc

theorem ascii_escChar7 (q : Option Char) (qs : Str) (hq : Ascii qs) (c : Char) : Ascii (escChar7 q qs c) := by
  have hx : ∀ k, Ascii (['&', '#', 'x'] ++ hexDigits k c.toNat ++ [';']) := fun k =>
    ascii_app (ascii_app (ascii_lit _ (by decide)) (ascii_hexDigits _ _)) (ascii_lit _ (by decide))
  unfold escChar7
  split
  · split
    · split
      · exact hx 6
      · exact hx 4
    · exact hx 2
  · rename_i hc
    split
    · exact ascii_lit _ (by decide)
    · split
      · exact ascii_lit _ (by decide)
      · split
        · exact ascii_lit _ (by decide)
        · split
          · exact ascii_lit _ (by decide)
          · split
            · exact hq
            · intro d hd
              rw [List.mem_singleton.1 hd]
              omega

theorem ascii_flat (q : Option Char) (qs : Str) (hq : Ascii qs) (s : Str) : Ascii (s.flatMap (escChar7 q qs)) := by
  intro c hc
  obtain ⟨d, _, h⟩ := List.mem_flatMap.1 hc
  exact ascii_escChar7 q qs hq d c h

end PX

/-- **The escapes for ASCII write ASCII only**, for data and for attribute values. -/
theorem py_xml_ascii (s : Str) :
    (∀ c ∈ asciiEscape.data s, c.toNat < 128) ∧ (∀ c ∈ asciiEscape.att s, c.toNat < 128) := by
  have key : ∀ (q : Char) (qs : Str), q.toNat < 128 → Ascii qs → Ascii (q :: s.flatMap (escChar7 (some q) qs) ++ [q]) := by
    intro q qs hq hqs
    have h1 : Ascii [q] := by intro c hc; rw [List.mem_singleton.1 hc]; exact hq
    exact ascii_app (a := q :: s.flatMap (escChar7 (some q) qs)) (ascii_app h1 (ascii_flat _ _ hqs s)) h1
  constructor
  · exact ascii_flat none [] (by intro c hc; simp at hc) s
  · show Ascii (escapeQuoted7 s)
    unfold escapeQuoted7
    split
    · exact key '"' _ (by decide) (ascii_lit _ (by decide))
    · split
      · exact key '\'' _ (by decide) (ascii_lit _ (by decide))
      · exact key '"' _ (by decide) (ascii_lit _ (by decide))

/-! ## Values -/

/-- **A value that is set is the value**; setting `None` leaves nothing, whatever was there. -/
theorem py_xml_set_value (ks : List PyXml.Node) (v : Str) (b : Bool) :
    getValue b (setValue ks (some v)) = .ok v ∧ getValue b (setValue ks none) = .ok [] := by
  constructor
  · simp [setValue, getValue]
  · simp [setValue, getValue]

/-- The value of an element without child elements is its characters. -/
theorem py_xml_get_value (b : Bool) (ks : List PyXml.Node) (v : Str) :
    getValue b ks = .ok v ↔ flatAll ks = v.map .chr ∧ ∀ k ∈ ks, ∃ s, k = .text s := by
  induction ks generalizing b v with
  | nil =>
    simp only [getValue, flatAll]
    constructor
    · intro h; cases h; exact ⟨rfl, by simp⟩
    · rintro ⟨h, _⟩
      cases v with
      | nil => rfl
      | cons c v => simp at h
  | cons k r ih =>
    cases k with
    | elem n as ks =>
      simp only [getValue]
      constructor
      · intro h; cases h
      · rintro ⟨_, h⟩
        obtain ⟨s, e⟩ := h _ List.mem_cons_self
        cases e
    | text s =>
      simp only [getValue, flatAll, flat]
      constructor
      · intro h
        split at h
        · rename_i v' e
          cases h
          obtain ⟨h1, h2⟩ := (ih _ _).1 e
          refine ⟨by rw [h1, List.map_append], ?_⟩
          intro k hk
          rcases List.mem_cons.1 hk with rfl | hk
          · exact ⟨s, rfl⟩
          · exact h2 k hk
        · cases h
      · rintro ⟨h1, h2⟩
        have hv : ∃ v', v = s ++ v' := by
          clear ih h2
          induction s generalizing v with
          | nil => exact ⟨v, rfl⟩
          | cons c s ihs =>
            cases v with
            | nil => simp at h1
            | cons d v =>
              simp at h1
              obtain ⟨rfl, h1⟩ := h1
              obtain ⟨v', rfl⟩ := ihs v (by simpa using h1)
              exact ⟨v', rfl⟩
        obtain ⟨v', rfl⟩ := hv
        rw [List.map_append] at h1
        have h3 := List.append_cancel_left h1
        rw [(ih false v').2 ⟨h3, fun k hk => h2 k (List.mem_cons_of_mem _ hk)⟩]

/-- **Child elements cannot be left out of the value**: asking for that raises the error that it should avoid. -/
theorem py_xml_ignore_elements_refuted (a b : List PyXml.Node) (n : Str) (as : List (Str × Str)) (ks : List PyXml.Node) :
    getValue true (a ++ .elem n as ks :: b) = .error .xmlException := by
  have key : ∀ x, getValue x (a ++ .elem n as ks :: b) = .error .xmlException := by
    induction a with
    | nil => intro x; simp [getValue]
    | cons k a ih =>
      intro x
      cases k with
      | elem => simp [getValue]
      | text s => simp [getValue, ih]
  exact key true

/-! ## The hypotheses are met -/

namespace PX

theorem bmp_letter (c : Char) (h : (97 ≤ c.toNat ∧ c.toNat ≤ 122)) : BmpName [c] := by
  refine ⟨⟨c, [], rfl, ?_, by simp⟩, ?_⟩
  · simp only [XmlNameStart]
    omega
  · intro d hd
    rw [List.mem_singleton.1 hd]
    omega

end PX

/-- A document with an XML declaration, a comment, a processing instruction, a CDATA section, references and an attribute in
single quotes meets the hypothesis of `py_xml_reads_partial`. -/
example : PlainDocument "<?xml version='1.0'?><!--c--><a b='x&amp;'><?p q?><![CDATA[<]]>t&#65;<c/></a>".toList
    (.elem ['a'] [(['b'], ['x', '&'])] [.chr '<', .chr 't', .chr 'A', .elem ['c'] [] []]) := by
  have oS : OptS [] := by intro c hc; simp at hc
  have sS : SomeS [' '] := ⟨by simp, by intro c hc; exact .inl (List.mem_singleton.1 hc)⟩
  have na := bmp_letter 'a' (by decide)
  have nb := bmp_letter 'b' (by decide)
  have nc := bmp_letter 'c' (by decide)
  have np := bmp_letter 'p' (by decide)
  have noc : ∀ (a b c : Char) (s : Str), s.length < 2 → ¬ Occurs [a, b] s := by
    rintro a b c s hl ⟨u, v, e⟩
    have := congrArg List.length e
    simp at this
    omega
  have hat : XAttrs BmpName ([' '] ++ ['b'] ++ [] ++ '=' :: [] ++ '\'' :: "x&amp;".toList ++ '\'' :: []) [(['b'], ['x', '&'])] := by
    refine .cons sS nb oS oS (.inr rfl) ?_ .nil
    have h1 : XAttVal '\'' ('&' :: ['a', 'm', 'p'] ++ ';' :: []) ['&'] := .ref (.pre .amp) .nil
    refine .chr 'x' (by decide +kernel) (by decide) (by decide) (by decide) ?_ h1
    rintro (h | h | h | h) <;> exact absurd h (by decide)
  have hpi : XPI BmpName PlainPI "p q".toList := by
    refine ⟨['p'], [' ', 'q'], by decide +kernel, np, by decide +kernel, .inr ⟨[' '], ['q'], rfl, sS, lit_chars _ (by decide +kernel), noc _ _ 'q' _ (by decide)⟩, ?_⟩
    rintro ⟨u, v, e⟩
    match u, e with
    | [], e => simp at e
    | [_], e => simp at e
    | _ :: _ :: _, e =>
      have := congrArg List.length e
      simp at this
      omega
  have h1 : XContent BmpName PlainPI ('<' :: ['c'] ++ [] ++ [] ++ '/' :: '>' :: []) (.elem ['c'] [] [] :: []) :=
    .empty nc .nil (by simp) oS .nil
  have h2 : XContent BmpName PlainPI ('&' :: ['#', '6', '5'] ++ ';' :: ('<' :: ['c'] ++ [] ++ [] ++ '/' :: '>' :: []))
      (.chr 'A' :: [.elem ['c'] [] []]) := by
    refine .ref (.pre (.num ['6', '5'] 'A' (by simp) ?_ (by decide) (by decide +kernel))) h1
    intro d hd
    simp at hd
    rcases hd with rfl | rfl <;> decide
  have h3 : XContent BmpName PlainPI ('t' :: ('&' :: ['#', '6', '5'] ++ ';' :: ('<' :: ['c'] ++ [] ++ [] ++ '/' :: '>' :: [])))
      (.chr 't' :: [.chr 'A', .elem ['c'] [] []]) :=
    .chr 't' (by decide +kernel) (by decide) (by decide) (by rintro ⟨x, e⟩; simp at e) h2
  have h4 := XContent.cdata (N := BmpName) (P := PlainPI) (d := ['<']) (lit_chars _ (by decide +kernel)) (by
    rintro ⟨u, v, e⟩
    match u, e with
    | [], e => simp at e
    | _ :: _, e =>
      have := congrArg List.length e
      simp at this
      omega) h3
  have h5 := XContent.pi (N := BmpName) (P := PlainPI) hpi h4
  have he := XElement.elem na hat (by simp) oS oS h5
  have hc : XComment ['c'] := by
    refine ⟨lit_chars _ (by decide +kernel), ?_⟩
    rintro ⟨u, v, e⟩
    match u, e with
    | [], e => simp at e
    | _ :: _, e =>
      have := congrArg List.length e
      simp at this
      omega
  have hm := XMisc.comment (N := BmpName) (P := PlainPI) hc .nil
  have hd : XDecl "<?xml version='1.0'?>".toList := by
    refine ⟨" version='1.0'".toList, [], [], [], by decide +kernel, ?_, .inl rfl, .inl rfl, oS⟩
    refine ⟨[' '], ['='], '\'', "1.0".toList, by decide +kernel, sS, ⟨[], [], rfl, oS, oS⟩, .inr rfl, ['0'], by decide +kernel,
      by simp, ?_⟩
    intro c hc
    rw [List.mem_singleton.1 hc]
    exact ⟨by decide, by decide⟩
  exact ⟨_, .inl rfl, _, _, _, [], by decide +kernel, .inr hd, hm, he, .nil⟩

/-- A tree that meets the hypotheses of `py_xml_round_trip` and `py_xml_words`. -/
example : PX.Clean (.elem ['a'] [(['b'], ['x', '<', '"'])] [.text ['&', '\r', '\n'], .elem ['c'] [] []]) ∧
    PX.Unspaced (.elem ['a'] [(['b'], ['x', '<', '"'])] [.text ['&', '\r', '\n'], .elem ['c'] [] []]) := by
  constructor
  · refine .elem (bmp_letter 'a' (by decide)) (by simp) ?_ ?_
    · intro a ha
      rw [List.mem_singleton.1 ha]
      exact ⟨bmp_letter 'b' (by decide), lit_chars _ (by decide +kernel), by decide, by decide⟩
    · intro k hk
      simp at hk
      rcases hk with rfl | rfl
      · exact .text (lit_chars _ (by decide +kernel))
      · exact .elem (bmp_letter 'c' (by decide)) (by simp) (by simp) (by simp)
  · refine .elem ?_ ?_
    · intro a ha
      rw [List.mem_singleton.1 ha]
      decide +kernel
    · intro k hk
      simp at hk
      rcases hk with rfl | rfl
      · exact .text (by simp)
      · exact .elem (by simp) (by simp)

end Verif.Props
