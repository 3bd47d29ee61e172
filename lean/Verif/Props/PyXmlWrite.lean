import Verif.Props.PyXmlRead

/-!
# Writing documents and reading them back
-/

namespace Verif.Props

open Verif Verif.Names Verif.Spec Verif.PyXml
open Verif.Props.PX (flat)
open Verif.Props.PX.flat (flatAll)

/-- Every character is a legal XML character. -/
def PX.Legal (s : Str) : Prop := ∀ c ∈ s, XmlChar c

/-- A tree whose names are names of the basic multilingual plane, with no repeated attribute, whose characters are legal
and whose attribute values have no tabs and no line feeds. -/
inductive PX.Clean : PyXml.Node → Prop
  | text {s : Str} : PX.Legal s → PX.Clean (.text s)
  | elem {n : Str} {as : List (Str × Str)} {ks : List PyXml.Node} : BmpName n → (as.map Prod.fst).Nodup →
      (∀ a ∈ as, BmpName a.1 ∧ PX.Legal a.2 ∧ '\t' ∉ a.2 ∧ '\n' ∉ a.2) → (∀ k ∈ ks, PX.Clean k) → PX.Clean (.elem n as ks)

open PX

namespace PX

/-- Content before which `]]` may come. -/
def Safe (x : Str) : Prop := ¬ ['>'] <+: x ∧ ¬ [']', '>'] <+: x

theorem safe_nil : Safe [] := ⟨by rintro ⟨t, e⟩; simp at e, by rintro ⟨t, e⟩; simp at e⟩

theorem safe_cons {c : Char} {x : Str} (hc : c ≠ '>') (hx : ¬ ['>'] <+: x) : Safe (c :: x) := by
  constructor
  · rintro ⟨t, e⟩; exact hc (List.cons.inj e).1.symm
  · rintro ⟨t, e⟩; exact hx ⟨t, (List.cons.inj e).2⟩

theorem safe_lt (x : Str) : Safe ('<' :: x) :=
  ⟨by rintro ⟨t, e⟩; simp at e, by rintro ⟨t, e⟩; simp at e⟩

theorem safe_amp (x : Str) : Safe ('&' :: x) :=
  ⟨by rintro ⟨t, e⟩; simp at e, by rintro ⟨t, e⟩; simp at e⟩

/-- What is needed of the functions that escape. -/
structure Sound (esc : Escape) : Prop where
  data : ∀ (s x : Str) (ns : List Spec.Node), Legal s → XContent BmpName PlainPI x ns → Safe x →
    XContent BmpName PlainPI (esc.data s ++ x) (s.map .chr ++ ns) ∧ Safe (esc.data s ++ x)
  att : ∀ s : Str, Legal s → '\t' ∉ s → '\n' ∉ s →
    ∃ q v, esc.att s = q :: v ++ [q] ∧ Quote q ∧ XAttVal q v s
  noCR : ∀ s : Str, '\r' ∉ esc.data s ∧ '\r' ∉ esc.att s

theorem content_safe_chr {c : Char} {x : Str} {ns : List Spec.Node} (hc : XmlChar c) (h1 : c ≠ '<') (h2 : c ≠ '&') (h3 : c ≠ '>')
    (hx : XContent BmpName PlainPI x ns) (hs : Safe x) :
    XContent BmpName PlainPI (c :: x) (.chr c :: ns) ∧ Safe (c :: x) := by
  refine ⟨.chr c hc h1 h2 ?_ hx, safe_cons h3 hs.1⟩
  rintro ⟨t, e⟩
  exact hs.2 ⟨t, (List.cons.inj e).2⟩

theorem content_safe_ref {r : Str} {c : Char} {x : Str} {ns : List Spec.Node} (hr : XRef r c)
    (hx : XContent BmpName PlainPI x ns) :
    XContent BmpName PlainPI ('&' :: r ++ ';' :: x) (.chr c :: ns) ∧ Safe ('&' :: r ++ ';' :: x) :=
  ⟨.ref hr hx, safe_amp _⟩

theorem cr_ref : XRef ['#', 'x', 'D'] '\r' :=
  .hex (.one (.upper 'D' (by decide) (by decide))) (by simp only [XmlChar]; decide)

theorem escChar_sound (c : Char) (x : Str) (ns : List Spec.Node) (hc : XmlChar c) (hx : XContent BmpName PlainPI x ns)
    (hs : Safe x) : XContent BmpName PlainPI (escChar c ++ x) (.chr c :: ns) ∧ Safe (escChar c ++ x) := by
  unfold escChar
  split
  · rename_i h; subst h; exact content_safe_ref (.pre .amp) hx
  · split
    · rename_i h; subst h; exact content_safe_ref (.pre .lt) hx
    · split
      · rename_i h; subst h; exact content_safe_ref (.pre .gt) hx
      · split
        · rename_i h; subst h; exact content_safe_ref cr_ref hx
        · rename_i h1 h2 h3 _
          exact content_safe_chr hc h2 h1 h3 hx hs

/-- An escaped character inside the quotes `q`. -/
def AttOk (q : Char) (e : Char → Str) : Prop :=
  ∀ c, XmlChar c → c ≠ '\t' → c ≠ '\n' → ∀ v val, XAttVal q v val → XAttVal q (e c ++ v) (c :: val)

theorem att_flat {q : Char} {e : Char → Str} (h : AttOk q e) (s : Str) (hl : Legal s) (ht : '\t' ∉ s) (hn : '\n' ∉ s) :
    XAttVal q (s.flatMap e) s := by
  induction s with
  | nil => exact .nil
  | cons c s ih =>
    simp only [List.mem_cons, not_or] at ht hn
    rw [List.flatMap_cons]
    exact h c (hl c List.mem_cons_self) (fun e => ht.1 e.symm) (fun e => hn.1 e.symm) _ _
      (ih (fun d hd => hl d (List.mem_cons_of_mem _ hd)) ht.2 hn.2)

theorem att_plain {q c : Char} (hc : XmlChar c) (h1 : c ≠ '<') (h2 : c ≠ '&') (h3 : c ≠ q) (h4 : c ≠ '\t') (h5 : c ≠ '\n')
    (h6 : c ≠ '\r') {v val : Str} (hv : XAttVal q v val) : XAttVal q ([c] ++ v) (c :: val) := by
  by_cases hs : c = ' '
  · subst hs
    exact .space ' ' (.inl rfl) hv
  · refine .chr c hc h1 h2 h3 ?_ hv
    rintro (h | h | h | h)
    · exact hs h
    · exact h4 h
    · exact h5 h
    · exact h6 h

theorem escChar_att (q : Char) (r : Str) (hr : XRef r q) :
    AttOk q (fun c => if c = q then '&' :: r ++ [';'] else escChar c) := by
  intro c hc ht hn v val hv
  dsimp only
  split
  · rename_i h
    subst h
    have := XAttVal.ref hr hv
    simpa using this
  · rename_i hq
    unfold escChar
    split
    · rename_i h; subst h; exact .ref (.pre .amp) hv
    · split
      · rename_i h; subst h; exact .ref (.pre .lt) hv
      · split
        · rename_i h; subst h; exact .ref (.pre .gt) hv
        · split
          · rename_i h; subst h; exact .ref cr_ref hv
          · rename_i h1 h2 _ h6
            exact att_plain hc h2 h1 hq ht hn h6 hv

theorem escChar_noCR (c : Char) : '\r' ∉ escChar c := by
  unfold escChar
  repeat' split
  any_goals decide
  rename_i h
  intro hm
  exact h (List.mem_singleton.1 hm).symm

/-- The escapes of `EscapeCharData` are sound. -/
theorem std_sound : Sound stdEscape where
  data s x ns hl hx hs := by
    show XContent BmpName PlainPI (s.flatMap escChar ++ x) _ ∧ Safe (s.flatMap escChar ++ x)
    induction s with
    | nil => exact ⟨hx, hs⟩
    | cons c s ih =>
      obtain ⟨h1, h2⟩ := ih (fun d hd => hl d (List.mem_cons_of_mem _ hd))
      rw [List.flatMap_cons, List.append_assoc]
      exact escChar_sound c _ _ (hl c List.mem_cons_self) h1 h2
  att s hl ht hn := by
    show ∃ q v, escapeQuoted s = q :: v ++ [q] ∧ Quote q ∧ XAttVal q v s
    unfold escapeQuoted
    split
    · exact ⟨'\'', _, rfl, .inr rfl, att_flat (escChar_att '\'' ['a', 'p', 'o', 's'] (.pre .apos)) s hl ht hn⟩
    · exact ⟨'"', _, rfl, .inl rfl, att_flat (escChar_att '"' ['q', 'u', 'o', 't'] (.pre .quot)) s hl ht hn⟩
  noCR s := by
    constructor
    · intro h
      obtain ⟨c, _, hc⟩ := List.mem_flatMap.1 h
      exact escChar_noCR c hc
    · have key : ∀ (q : Char) (r : Str), q ≠ '\r' → '\r' ∉ r →
          '\r' ∉ (q :: s.flatMap (fun c => if c = q then r else escChar c) ++ [q]) := by
        intro q r hq hr h
        simp only [List.cons_append, List.mem_cons, List.mem_append, List.mem_flatMap] at h
        rcases h with h | ⟨c, _, hc⟩ | h | h
        · exact hq h.symm
        · split at hc
          · exact hr hc
          · exact escChar_noCR c hc
        · exact hq h.symm
        · simp at h
      show '\r' ∉ escapeQuoted s
      unfold escapeQuoted
      split
      · exact key '\'' ['&', 'a', 'p', 'o', 's', ';'] (by decide) (by decide)
      · exact key '"' ['&', 'q', 'u', 'o', 't', ';'] (by decide) (by decide)

theorem hexDigit_digit (n : Nat) (h : n < 16) : HexDigit (PyXml.hexDigit n) n := by
  have : ∀ n : Fin 16, (if n.val < 10 then (PyXml.hexDigit n.val).toNat = 48 + n.val else (PyXml.hexDigit n.val).toNat = 55 + n.val) := by
    decide +kernel
  have h' := this ⟨n, h⟩
  dsimp only at h'
  split at h'
  · have := HexDigit.dec (PyXml.hexDigit n) (by omega) (by omega)
    rw [h'] at this
    simpa using this
  · have := HexDigit.upper (PyXml.hexDigit n) (by omega) (by omega)
    have e : (PyXml.hexDigit n).toNat - 65 + 10 = n := by omega
    rwa [e] at this

theorem hexDigits_number : (k n : Nat) → n < 16 ^ (k + 1) → HexNumber (hexDigits (k + 1) n) n
  | 0, n, h => by
    have h : n < 16 := by simpa using h
    have e : n % 16 = n := Nat.mod_eq_of_lt h
    simp only [hexDigits, List.nil_append, e]
    exact .one (hexDigit_digit n h)
  | k + 1, n, h => by
    have h1 : n / 16 < 16 ^ (k + 1) := by
      rw [Nat.pow_succ] at h
      omega
    have := HexNumber.more (hexDigits_number k _ h1) (hexDigit_digit (n % 16) (Nat.mod_lt _ (by omega)))
    rw [Nat.div_add_mod] at this
    exact this

/-- What a character is written as by `EscapeCharData7`. -/
theorem escChar7_cases (q : Option Char) (qs : Str) (c : Char) (hc : XmlChar c) :
    (∃ r, escChar7 q qs c = '&' :: r ++ [';'] ∧ XRef r c) ∨ (some c = q ∧ escChar7 q qs c = qs) ∨
    (escChar7 q qs c = [c] ∧ c ≠ '<' ∧ c ≠ '&' ∧ c ≠ '>' ∧ c ≠ '\r' ∧ some c ≠ q) := by
  unfold escChar7
  have hle := toNat_le c
  split
  · left
    split
    · split
      · exact ⟨'#' :: 'x' :: hexDigits 6 c.toNat, by simp, .hex (hexDigits_number 5 _ (by omega)) hc⟩
      · exact ⟨'#' :: 'x' :: hexDigits 4 c.toNat, by simp, .hex (hexDigits_number 3 _ (by omega)) hc⟩
    · exact ⟨'#' :: 'x' :: hexDigits 2 c.toNat, by simp, .hex (hexDigits_number 1 _ (by omega)) hc⟩
  · split
    · rename_i h; subst h; exact .inl ⟨['l', 't'], rfl, .pre .lt⟩
    · split
      · rename_i h; subst h; exact .inl ⟨['a', 'm', 'p'], rfl, .pre .amp⟩
      · split
        · rename_i h; subst h; exact .inl ⟨['g', 't'], rfl, .pre .gt⟩
        · split
          · rename_i h; subst h; exact .inl ⟨['#', 'x', 'D'], rfl, cr_ref⟩
          · split
            · rename_i h; exact .inr (.inl ⟨h, rfl⟩)
            · rename_i h1 h2 h3 h4 h5; exact .inr (.inr ⟨rfl, h1, h2, h3, h4, h5⟩)

theorem escChar7_att (q : Char) (r : Str) (hr : XRef r q) : AttOk q (escChar7 (some q) ('&' :: r ++ [';'])) := by
  intro c hc ht hn v val hv
  rcases escChar7_cases (some q) ('&' :: r ++ [';']) c hc with ⟨r', e, h⟩ | ⟨h, e⟩ | ⟨e, h1, h2, _, h4, h5⟩
  · rw [e]
    have := XAttVal.ref h hv
    simpa using this
  · rw [e]
    cases h
    have := XAttVal.ref hr hv
    simpa using this
  · rw [e]
    exact att_plain hc h1 h2 (by rintro rfl; exact h5 rfl) ht hn h4 hv

theorem hexDigits_noCR (k n : Nat) : '\r' ∉ hexDigits k n := by
  induction k generalizing n with
  | zero => simp [hexDigits]
  | succ k ih =>
    simp only [hexDigits, List.mem_append, List.mem_singleton, not_or]
    refine ⟨ih _, ?_⟩
    have := hexDigit_val (hexDigit_digit (n % 16) (Nat.mod_lt _ (by omega)))
    intro h
    rw [← h] at this
    exact absurd this.1 (by decide)

theorem escChar7_noCR (q : Option Char) (qs : Str) (hq : '\r' ∉ qs) (c : Char) : '\r' ∉ escChar7 q qs c := by
  have hx : ∀ k, '\r' ∉ ['&', '#', 'x'] ++ hexDigits k c.toNat ++ [';'] := by
    intro k h
    simp only [List.mem_append] at h
    rcases h with (h | h) | h
    · revert h; decide
    · exact hexDigits_noCR _ _ h
    · revert h; decide
  unfold escChar7
  split
  · split
    · split
      · exact hx 6
      · exact hx 4
    · exact hx 2
  · split
    · decide
    · split
      · decide
      · split
        · decide
        · split
          · decide
          · split
            · exact hq
            · rename_i h _
              intro hm
              exact h (List.mem_singleton.1 hm).symm

theorem quot_ref : XRef ['#', 'x', '2', '2'] '"' :=
  .hex (.more (.one (.dec '2' (by decide) (by decide))) (.dec '2' (by decide) (by decide))) (by simp only [XmlChar]; decide)

theorem apos_ref : XRef ['#', 'x', '2', '7'] '\'' :=
  .hex (.more (.one (.dec '2' (by decide) (by decide))) (.dec '7' (by decide) (by decide))) (by simp only [XmlChar]; decide)

/-- The escapes of `EscapeCharData7` are sound. -/
theorem ascii_sound : Sound asciiEscape where
  data s x ns hl hx hs := by
    show XContent BmpName PlainPI (s.flatMap (escChar7 none []) ++ x) _ ∧ Safe (s.flatMap (escChar7 none []) ++ x)
    induction s with
    | nil => exact ⟨hx, hs⟩
    | cons c s ih =>
      obtain ⟨h1, h2⟩ := ih (fun d hd => hl d (List.mem_cons_of_mem _ hd))
      have hc := hl c List.mem_cons_self
      rw [List.flatMap_cons, List.append_assoc]
      rcases escChar7_cases none [] c hc with ⟨r', e, h⟩ | ⟨h, e⟩ | ⟨e, h3, h4, h5, _, _⟩
      · rw [e]
        have := content_safe_ref h h1
        simpa using this
      · cases h
      · rw [e]
        exact content_safe_chr hc h3 h4 h5 h1 h2
  att s hl ht hn := by
    show ∃ q v, escapeQuoted7 s = q :: v ++ [q] ∧ Quote q ∧ XAttVal q v s
    unfold escapeQuoted7
    split
    · exact ⟨'"', _, rfl, .inl rfl, att_flat (escChar7_att '"' _ quot_ref) s hl ht hn⟩
    · split
      · exact ⟨'\'', _, rfl, .inr rfl, att_flat (escChar7_att '\'' _ apos_ref) s hl ht hn⟩
      · exact ⟨'"', _, rfl, .inl rfl, att_flat (escChar7_att '"' _ quot_ref) s hl ht hn⟩
  noCR s := by
    constructor
    · intro h
      obtain ⟨c, _, hc⟩ := List.mem_flatMap.1 h
      exact escChar7_noCR _ _ (by simp) c hc
    · have key : ∀ (q : Char) (r : Str), q ≠ '\r' → '\r' ∉ r →
          '\r' ∉ (q :: s.flatMap (escChar7 (some q) r) ++ [q]) := by
        intro q r hq hr h
        simp only [List.cons_append, List.mem_cons, List.mem_append, List.mem_flatMap] at h
        rcases h with h | ⟨c, _, hc⟩ | h | h
        · exact hq h.symm
        · exact escChar7_noCR _ _ hr c hc
        · exact hq h.symm
        · simp at h
      show '\r' ∉ escapeQuoted7 s
      unfold escapeQuoted7
      split
      · exact key '"' _ (by decide) (by decide)
      · split
        · exact key '\'' _ (by decide) (by decide)
        · exact key '"' _ (by decide) (by decide)

/-! ## Attributes -/

theorem insert_perm (a : Str × Str) (l : List (Str × Str)) : (insertAttr a l).Perm (a :: l) := by
  induction l with
  | nil => exact .refl _
  | cons b r ih =>
    rw [insertAttr]
    split
    · exact .refl _
    · exact (ih.cons b).trans (.swap a b r)

theorem sort_perm (l : List (Str × Str)) : (sortAttrs l).Perm l := by
  induction l with
  | nil => exact .refl _
  | cons a r ih => exact (insert_perm a _).trans (ih.cons a)

theorem attrs_written {esc : Escape} (he : Sound esc) (l : List (Str × Str))
    (h : ∀ a ∈ l, BmpName a.1 ∧ Legal a.2 ∧ '\t' ∉ a.2 ∧ '\n' ∉ a.2) :
    XAttrs BmpName (l.flatMap (fun a => ' ' :: a.1 ++ '=' :: esc.att a.2)) l := by
  induction l with
  | nil => exact .nil
  | cons a r ih =>
    obtain ⟨h1, h2, h3, h4⟩ := h a List.mem_cons_self
    obtain ⟨q, v, e, hq, hv⟩ := he.att a.2 h2 h3 h4
    have ih := ih (fun b hb => h b (List.mem_cons_of_mem _ hb))
    rw [List.flatMap_cons, e]
    have := XAttrs.cons (w := [' ']) (w1 := []) (w2 := []) ⟨by simp, by intro c hc; simp at hc; exact .inl hc⟩ h1
      (by intro c hc; simp at hc) (by intro c hc; simp at hc) hq hv ih
    simpa using this

/-! ## Trees -/

mutual
/-- The tree with the attributes of each element in the order in which they are written. -/
def sorted : PyXml.Node → PyXml.Node
  | .text s => .text s
  | .elem n as ks => .elem n (sortAttrs as) (sortedAll ks)
/-- `sorted` of each. -/
def sortedAll : List PyXml.Node → List PyXml.Node
  | [] => []
  | k :: r => sorted k :: sortedAll r
end

theorem same_append {a b c d : List Spec.Node} (h : SameAll a b) (h' : SameAll c d) : SameAll (a ++ c) (b ++ d) := by
  induction a generalizing b with
  | nil => cases h; exact h'
  | cons x a ih =>
    cases h with
    | cons hx ht => exact .cons hx (ih ht)

theorem same_text (s : Str) : SameAll (s.map .chr) (s.map .chr) := by
  induction s with
  | nil => exact .nil
  | cons c s ih => exact .cons (.chr c) ih

mutual
theorem sorted_same : (t : PyXml.Node) → SameAll (flat (sorted t)) (flat t)
  | .text s => by simp only [sorted, flat]; exact same_text s
  | .elem n as ks => by
    simp only [sorted, flat]
    exact .cons (.elem (sort_perm as) (sortedAll_same ks)) .nil
theorem sortedAll_same : (l : List PyXml.Node) → SameAll (flatAll (sortedAll l)) (flatAll l)
  | [] => .nil
  | k :: r => by
    simp only [sortedAll, flatAll]
    exact same_append (sorted_same k) (sortedAll_same r)
end

theorem bmp_noCR {n : Str} (h : BmpName n) : '\r' ∉ n := by
  obtain ⟨c, t, rfl, h1, h2⟩ := bmp_start h
  have hr : isNameChar '\r' = false := by decide +kernel
  intro hm
  rcases List.mem_cons.1 hm with e | hm
  · rw [← e] at h1
    have := name_start_is_name _ h1
    rw [hr] at this
    cases this
  · rw [h2 _ hm] at hr
    cases hr

theorem writeAttrs_noCR {esc : Escape} (he : Sound esc) (as : List (Str × Str)) (h : ∀ a ∈ as, BmpName a.1) :
    '\r' ∉ writeAttrs esc as := by
  intro hm
  obtain ⟨a, ha, hm⟩ := List.mem_flatMap.1 hm
  have ha : a ∈ as := (sort_perm as).mem_iff.1 ha
  simp only [List.cons_append, List.mem_cons, List.mem_append] at hm
  rcases hm with hm | hm | hm | hm
  · exact absurd hm (by decide)
  · exact bmp_noCR (h a ha) hm
  · exact absurd hm (by decide)
  · exact (he.noCR _).2 hm

theorem tag_written {esc : Escape} (he : Sound esc) {as : List (Str × Str)} (hd : (as.map Prod.fst).Nodup)
    (h : ∀ a ∈ as, BmpName a.1 ∧ Legal a.2 ∧ '\t' ∉ a.2 ∧ '\n' ∉ a.2) :
    XAttrs BmpName (writeAttrs esc as) (sortAttrs as) ∧ ((sortAttrs as).map Prod.fst).Nodup :=
  ⟨attrs_written he _ (fun a ha => h a ((sort_perm as).mem_iff.1 ha)), (((sort_perm as).map Prod.fst).nodup_iff).2 hd⟩

mutual
theorem write_content {esc : Escape} (he : Sound esc) : (t : PyXml.Node) → Clean t → (x : Str) → (ns : List Spec.Node) →
    XContent BmpName PlainPI x ns → Safe x →
    XContent BmpName PlainPI (write esc t ++ x) (flat (sorted t) ++ ns) ∧ Safe (write esc t ++ x)
  | .text s, hc, x, ns, hx, hs => by
    cases hc with
    | text hl =>
      simp only [write, sorted, flat]
      exact he.data s x ns hl hx hs
  | .elem n as ks, hc, x, ns, hx, hs => by
    cases hc with
    | elem hn hd ha hk =>
      obtain ⟨hat, hnd⟩ := tag_written he hd ha
      have oS : OptS [] := by intro c hc; simp at hc
      simp only [write, sorted, flat]
      cases ks with
      | nil =>
        have := XContent.empty hn hat hnd oS hx
        simp only [List.isEmpty_nil, if_true, sortedAll, flatAll]
        refine ⟨by simpa using this, safe_lt _⟩
      | cons k r =>
        have hw := writeAll_content he (k :: r) hk
        have := XContent.elem hn hat hnd oS oS hw.1 hx
        simp only [List.isEmpty_cons, if_false, Bool.false_eq_true]
        refine ⟨by simpa using this, safe_lt _⟩
theorem writeAll_content {esc : Escape} (he : Sound esc) : (l : List PyXml.Node) → (∀ k ∈ l, Clean k) →
    XContent BmpName PlainPI (writeAll esc l) (flatAll (sortedAll l)) ∧ Safe (writeAll esc l)
  | [], _ => ⟨.nil, safe_nil⟩
  | k :: r, hc => by
    obtain ⟨h1, h2⟩ := writeAll_content he r (fun k hk => hc k (List.mem_cons_of_mem _ hk))
    simp only [writeAll, sortedAll, flatAll]
    exact write_content he k (hc k List.mem_cons_self) _ _ h1 h2
end

mutual
theorem write_noCR {esc : Escape} (he : Sound esc) : (t : PyXml.Node) → Clean t → '\r' ∉ write esc t
  | .text s, _ => by simp only [write]; exact (he.noCR s).1
  | .elem n as ks, hc => by
    cases hc with
    | elem hn hd ha hk =>
      have h1 := bmp_noCR hn
      have h2 := writeAttrs_noCR he as (fun a h => (ha a h).1)
      have h3 := writeAll_noCR he ks hk
      rw [write]
      split
      · simp only [List.cons_append, List.append_assoc, List.mem_cons, List.mem_append, not_or]
        exact ⟨by decide, h1, h2, by decide, by decide, by simp⟩
      · simp only [List.cons_append, List.append_assoc, List.mem_cons, List.mem_append, not_or]
        exact ⟨by decide, h1, h2, by decide, h3, by decide, by decide, h1, by decide, by simp⟩
theorem writeAll_noCR {esc : Escape} (he : Sound esc) : (l : List PyXml.Node) → (∀ k ∈ l, Clean k) → '\r' ∉ writeAll esc l
  | [], _ => by simp [writeAll]
  | k :: r, hc => by
    simp only [writeAll, List.mem_append, not_or]
    exact ⟨write_noCR he k (hc k List.mem_cons_self), writeAll_noCR he r (fun k hk => hc k (List.mem_cons_of_mem _ hk))⟩
end

/-! ## The canonical tree is clean -/

theorem collapseLoop_mem (m : Bool) (s : Str) : ∀ c ∈ collapseLoop m s, c = ' ' ∨ c ∈ s := by
  induction s generalizing m with
  | nil => intro c h; simp [collapseLoop] at h
  | cons d s ih =>
    intro c h
    rw [collapseLoop] at h
    have st : ∀ m, c ∈ collapseLoop m s → c = ' ' ∨ c ∈ d :: s := fun m h => (ih m c h).imp id (List.mem_cons_of_mem _)
    split at h
    · split at h
      · exact st _ h
      · rcases List.mem_cons.1 h with h | h
        · exact .inl h
        · exact st _ h
    · rcases List.mem_cons.1 h with h | h
      · exact .inr (by rw [h]; exact List.mem_cons_self)
      · exact st _ h

theorem legal_collapse (m : Bool) {s : Str} (h : Legal s) : Legal (collapse m s) := by
  have sp : XmlChar ' ' := by simp only [XmlChar]; decide
  intro c hc
  unfold collapse at hc
  split at hc
  · rw [List.mem_singleton.1 hc]; exact sp
  · rcases collapseLoop_mem m s c hc with rfl | h'
    · exact sp
    · exact h c h'

theorem canonLoop_clean (l : List PyXml.Node) : ∀ (x : Option Str) (m : Bool), (∀ k ∈ l, Clean k) → (∀ d, x = some d → Legal d) →
    ∀ k ∈ canonLoop x m l, Clean k := by
  have sp : Legal [' '] := by intro c hc; rw [List.mem_singleton.1 hc]; simp only [XmlChar]; decide
  induction l with
  | nil =>
    intro x m _ hx k hk
    cases x with
    | none => simp [canonLoop] at hk
    | some d =>
      have hd := legal_collapse m (hx d rfl)
      simp only [canonLoop] at hk
      split at hk
      · split at hk
        · simp at hk
          rcases hk with rfl | rfl
          · exact .text (by intro c hc; simp at hc)
          · exact .text sp
        · simp at hk
      · split at hk
        · simp at hk
          subst hk
          exact .text (fun c hc => hd c (List.dropLast_subset _ hc))
        · simp at hk
          subst hk
          exact .text hd
  | cons k0 l ih =>
    intro x m hl hx k hk
    have hl' := fun k h => hl k (List.mem_cons_of_mem _ h)
    cases k0 with
    | text s =>
      have hs : Legal s := by
        cases hl _ List.mem_cons_self with
        | text h => exact h
      cases x with
      | none =>
        rw [canonLoop] at hk
        exact ih (some s) m hl' (by rintro d ⟨⟩; exact hs) k hk
      | some d =>
        rw [canonLoop] at hk
        refine ih (some (d ++ s)) m hl' ?_ k hk
        rintro e ⟨⟩
        intro c hc
        rcases List.mem_append.1 hc with h | h
        · exact hx d rfl c h
        · exact hs c h
    | elem n as ks =>
      have he := hl _ List.mem_cons_self
      cases x with
      | none =>
        rw [canonLoop] at hk
        rcases List.mem_cons.1 hk with rfl | hk
        · exact he
        · exact ih none false hl' (by intro d h; cases h) k hk
      | some d =>
        rw [canonLoop] at hk
        rcases List.mem_append.1 hk with hk | hk
        · split at hk
          · simp at hk; subst hk; exact .text (legal_collapse m (hx d rfl))
          · simp at hk
        · rcases List.mem_cons.1 hk with rfl | hk
          · exact he
          · exact ih none false hl' (by intro d h; cases h) k hk

theorem canonKids_clean (l : List PyXml.Node) (h : ∀ k ∈ l, Clean k) : ∀ k ∈ canonKids l, Clean k := by
  intro k hk
  rw [canonKids.eq_def] at hk
  split at hk
  · simp at hk
  · rename_i s
    simp at hk
    subst hk
    cases h _ List.mem_cons_self with
    | text hs => exact .text (legal_collapse true hs)
  · exact h k hk
  · rename_i s r _
    cases h _ List.mem_cons_self with
    | text hs =>
      exact canonLoop_clean r (some s) true (fun k hk => h k (List.mem_cons_of_mem _ hk)) (by rintro d ⟨⟩; exact hs) k hk
  · rename_i n as ks r _
    rcases List.mem_cons.1 hk with rfl | hk
    · exact h _ List.mem_cons_self
    · exact canonLoop_clean r none false (fun k hk => h k (List.mem_cons_of_mem _ hk)) (by intro d h; cases h) k hk

mutual
theorem canon_clean : (b : Bool) → (t : PyXml.Node) → Clean t → Clean (canon b t)
  | _, .text s, h => by simp only [canon]; exact h
  | b, .elem n as ks, h => by
    cases h with
    | elem hn hd ha hk =>
      have := canonAll_clean (preserves b as) ks hk
      simp only [canon]
      refine .elem hn hd ha ?_
      split
      · exact this
      · exact canonKids_clean _ this
theorem canonAll_clean : (b : Bool) → (l : List PyXml.Node) → (∀ k ∈ l, Clean k) → ∀ k ∈ canonAll b l, Clean k
  | _, [], _, k, hk => by simp [canonAll] at hk
  | b, k0 :: r, h, k, hk => by
    simp only [canonAll] at hk
    rcases List.mem_cons.1 hk with rfl | hk
    · exact canon_clean b k0 (h _ List.mem_cons_self)
    · exact canonAll_clean b r (fun k hk => h k (List.mem_cons_of_mem _ hk)) k hk
end

/-! ## The document -/

theorem header_decl : XDecl "<?xml version=\"1.0\" encoding=\"UTF-8\"?>".toList := by
  refine ⟨" version=\"1.0\"".toList, " encoding=\"UTF-8\"".toList, [], [], by decide +kernel, ?_, .inr ?_, .inl rfl,
    by intro c hc; simp at hc⟩
  · refine ⟨[' '], ['='], '"', "1.0".toList, by decide +kernel, ⟨by simp, ?_⟩, ⟨[], [], rfl, ?_, ?_⟩, .inl rfl, ['0'], by decide +kernel,
      by simp, ?_⟩
    · intro c hc; exact .inl (List.mem_singleton.1 hc)
    · intro c hc; simp at hc
    · intro c hc; simp at hc
    · intro c hc; rw [List.mem_singleton.1 hc]; exact ⟨by decide, by decide⟩
  · refine ⟨[' '], ['='], '"', "UTF-8".toList, by decide +kernel, ⟨by simp, ?_⟩, ⟨[], [], rfl, ?_, ?_⟩, .inl rfl, 'U', "TF-8".toList,
      by decide +kernel, .inl ⟨by decide, by decide⟩, ?_⟩
    · intro c hc; exact .inl (List.mem_singleton.1 hc)
    · intro c hc; simp at hc
    · intro c hc; simp at hc
    · intro c hc
      have : c = 'T' ∨ c = 'F' ∨ c = '-' ∨ c = '8' := by simpa using hc
      rcases this with rfl | rfl | rfl | rfl
      · exact .inl (.inl ⟨by decide, by decide⟩)
      · exact .inl (.inl ⟨by decide, by decide⟩)
      · exact .inr (.inr (.inr (.inr rfl)))
      · exact .inr (.inl ⟨by decide, by decide⟩)

theorem lineEnds_noCR (s : Str) (h : '\r' ∉ s) : lineEnds s = s := by
  induction s with
  | nil => rfl
  | cons c t ih =>
    simp only [List.mem_cons, not_or] at h
    rw [lineEnds_cons _ _ (fun e => h.1 e.symm), ih h.2]

theorem write_any {esc : Escape} (he : Sound esc) {n : Str} {as : List (Str × Str)} {ks' : List PyXml.Node}
    (hcc : Clean (.elem n as ks')) (d : Str) (hd : XDecl d) (hcd : '\r' ∉ d) :
    PlainDocument (d ++ '\n' :: write esc (.elem n as ks')) (.elem n (sortAttrs as) (flatAll (sortedAll ks'))) := by
  have hcr := write_noCR he _ hcc
  cases hcc with
  | elem hn hd' ha hk =>
    obtain ⟨hat, hnd⟩ := tag_written he hd' ha
    have oS : OptS [] := by intro c hc; simp at hc
    have hel : XElement BmpName PlainPI (write esc (.elem n as ks')) (.elem n (sortAttrs as) (flatAll (sortedAll ks'))) := by
      rw [write]
      cases ks' with
      | nil =>
        have := XElement.empty (P := PlainPI) hn hat hnd oS
        simp only [List.isEmpty_nil, if_true, sortedAll, flatAll]
        simpa using this
      | cons k r =>
        have := XElement.elem hn hat hnd oS oS (writeAll_content he (k :: r) hk).1
        simp only [List.isEmpty_cons, if_false, Bool.false_eq_true]
        simpa using this
    refine ⟨_, .inl rfl, d, ['\n'], write esc (.elem n as ks'), [], ?_, .inr hd, .space '\n' (.inr (.inr (.inl rfl))) .nil, hel, .nil⟩
    rw [lineEnds_noCR]
    · simp
    · simp only [List.mem_append, List.mem_cons, not_or]
      exact ⟨hcd, by decide, hcr⟩

theorem write_plain {esc : Escape} (he : Sound esc) {n : Str} {as : List (Str × Str)} {ks : List PyXml.Node}
    (hc : Clean (.elem n as ks)) :
    ∃ root, flat (sorted (canon false (.elem n as ks))) = [root] ∧ PlainDocument (writeDocument esc (.elem n as ks)) root := by
  have hcc := canon_clean false _ hc
  obtain ⟨ks', e⟩ : ∃ ks', canon false (.elem n as ks) = .elem n as ks' := by simp only [canon]; exact ⟨_, rfl⟩
  rw [e] at hcc
  have h := write_any he hcc _ header_decl (by decide +kernel)
  rw [← e] at h
  refine ⟨_, ?_, h⟩
  rw [e]
  simp [sorted, flat]

end PX

/-- **Documents can be read back.**  What is written, with either of the two ways to escape characters, is a well-formed
document; the library reads it, and what it reads are the elements, attributes and characters of the canonical tree that was
written. -/
theorem py_xml_round_trip (ascii : Bool) (n : Str) (as : List (Str × Str)) (ks : List PyXml.Node)
    (h : Clean (.elem n as ks)) :
    ∃ root t, PlainDocument (writeDocument (if ascii then asciiEscape else stdEscape) (.elem n as ks)) root ∧
      flat t = [root] ∧ SameAll [root] (flat (canon false (.elem n as ks))) ∧
      ∃ k, ∀ m, k ≤ m → PyXml.read m (writeDocument (if ascii then asciiEscape else stdEscape) (.elem n as ks)) = some (.ok t) := by
  have hs : Sound (if ascii then asciiEscape else stdEscape) := by
    split
    · exact ascii_sound
    · exact std_sound
  obtain ⟨root, e, hp⟩ := write_plain hs h
  obtain ⟨t, ht, hr⟩ := py_xml_reads_partial _ _ hp
  exact ⟨root, t, hp, ht, by rw [← e]; exact sorted_same _, hr⟩

namespace PX

/-- No element has `xml:space` with a value other than `preserve`. -/
inductive Keeps : PyXml.Node → Prop
  | text {s : Str} : Keeps (.text s)
  | elem {n : Str} {as : List (Str × Str)} {ks : List PyXml.Node} :
      (∀ a ∈ as, a.1 = "xml:space".toList → a.2 = "preserve".toList) → (∀ k ∈ ks, Keeps k) → Keeps (.elem n as ks)

/-- No element has `xml:space`. -/
inductive Unspaced : PyXml.Node → Prop
  | text {s : Str} : s ≠ [] → Unspaced (.text s)
  | elem {n : Str} {as : List (Str × Str)} {ks : List PyXml.Node} :
      (∀ a ∈ as, a.1 ≠ "xml:space".toList) → (∀ k ∈ ks, Unspaced k) → Unspaced (.elem n as ks)

theorem attr_mem {as : List (Str × Str)} {n v : Str} (h : attr as n = some v) : (n, v) ∈ as := by
  unfold attr at h
  cases hf : as.find? (fun a => decide (a.1 = n)) with
  | none => rw [hf] at h; cases h
  | some a =>
    rw [hf] at h
    cases h
    have h1 := List.mem_of_find?_eq_some hf
    have h2 := List.find?_some hf
    simp at h2
    rw [← h2]
    exact h1

mutual
theorem canon_keeps : (t : PyXml.Node) → Keeps t → canon true t = t
  | .text s, _ => by simp [canon]
  | .elem n as ks, h => by
    cases h with
    | elem ha hk =>
      have hp : preserves true as = true := by
        unfold preserves
        split
        · rename_i v e
          exact decide_eq_true (ha ("xml:space".toList, v) (attr_mem e) rfl)
        · rfl
      simp only [canon, hp, if_true]
      rw [canonAll_keeps ks hk]
theorem canonAll_keeps : (l : List PyXml.Node) → (∀ k ∈ l, Keeps k) → canonAll true l = l
  | [], _ => by simp [canonAll]
  | k :: r, h => by
    simp only [canonAll]
    rw [canon_keeps k (h k List.mem_cons_self), canonAll_keeps r (fun k hk => h k (List.mem_cons_of_mem _ hk))]
end

end PX

/-- **White space that is to be preserved is preserved**: if the root has `xml:space="preserve"` and no element below
it says otherwise, the tree that is written is the tree given. -/
theorem py_xml_preserve (n : Str) (as : List (Str × Str)) (ks : List PyXml.Node)
    (hp : attr as "xml:space".toList = some "preserve".toList) (hk : ∀ k ∈ ks, Keeps k) :
    canon false (.elem n as ks) = .elem n as ks := by
  have : preserves false as = true := by
    unfold preserves
    rw [hp]
    exact decide_eq_true rfl
  simp only [canon, this, if_true]
  rw [canonAll_keeps ks hk]

namespace PX

/-! ## White space -/

theorem chr_map (a b : Str) : (a ++ b).map Spec.Node.chr = a.map .chr ++ b.map .chr := List.map_append

theorem spaced_nil {s : List Spec.Node} (h : Spaced s []) : s = [] := by
  cases h
  rfl

theorem collapse_spaced (s : Str) : ∀ (X Y : List Spec.Node), Spaced X Y →
    Spaced (s.map .chr ++ X) ((collapseLoop false s).map .chr ++ Y) ∧
    ∃ w u, s = w ++ u ∧ OptS w ∧ Spaced (u.map .chr ++ X) ((collapseLoop true s).map .chr ++ Y) := by
  induction s with
  | nil => intro X Y h; exact ⟨h, [], [], rfl, by intro c hc; simp at hc, h⟩
  | cons c t ih =>
    intro X Y h
    obtain ⟨h1, w, u, rfl, hw, h2⟩ := ih X Y h
    by_cases hc : isS c = true
    · have hcw : OptS (c :: w) := by
        intro d hd
        rcases List.mem_cons.1 hd with rfl | hd
        · exact (isS_iff _).1 hc
        · exact hw d hd
      simp only [collapseLoop, hc, if_true, Bool.false_eq_true, if_false]
      refine ⟨?_, c :: w, u, rfl, hcw, h2⟩
      have := Spaced.run (w := c :: w) ⟨by simp, hcw⟩ h2
      simpa using this
    · have hns : ¬ SChar c := fun h => hc ((isS_iff c).2 h)
      simp only [collapseLoop, hc]
      refine ⟨.chr c hns h1, [], c :: (w ++ u), rfl, by intro c hc; simp at hc, .chr c hns h1⟩

/-- The same, when the space at the end is dropped. -/
theorem collapse_last (s : Str) : ∀ y : Str,
    (collapseLoop false s = y ++ [' '] → ∃ d w, s = d ++ w ∧ OptS w ∧ Spaced (d.map .chr) (y.map .chr)) ∧
    (collapseLoop true s = y ++ [' '] → ∃ w0 d w, s = w0 ++ d ++ w ∧ OptS w0 ∧ OptS w ∧ Spaced (d.map .chr) (y.map .chr)) := by
  induction s with
  | nil => intro y; exact ⟨fun h => by simp [collapseLoop] at h, fun h => by simp [collapseLoop] at h⟩
  | cons c t ih =>
    intro y
    by_cases hc : isS c = true
    · have hcs := (isS_iff c).1 hc
      simp only [collapseLoop, hc, if_true, Bool.false_eq_true, if_false]
      constructor
      · intro h
        cases y with
        | nil =>
          -- the run is the last thing
          have ht : collapseLoop true t = [] := by simpa using h
          obtain ⟨w, u, e, hw, hsp⟩ := (collapse_spaced t [] [] .nil).2
          rw [ht] at hsp
          have hu : u = [] := by
            cases u with
            | nil => rfl
            | cons d u => exact absurd (spaced_nil (by simpa using hsp)) (by simp)
          subst hu
          refine ⟨[], c :: t, rfl, ?_, .nil⟩
          intro d hd
          rcases List.mem_cons.1 hd with rfl | hd
          · exact hcs
          · rw [e, List.append_nil] at hd; exact hw d hd
        | cons b y =>
          simp at h
          obtain ⟨rfl, h⟩ := h
          obtain ⟨w0, d, w, rfl, h1, h2, h3⟩ := (ih y).2 h
          refine ⟨c :: w0 ++ d, w, by simp, h2, ?_⟩
          have hw : SomeS (c :: w0) := by
            refine ⟨by simp, ?_⟩
            intro e he
            rcases List.mem_cons.1 he with rfl | he
            · exact hcs
            · exact h1 e he
          have := Spaced.run hw h3
          rw [chr_map]
          exact this
      · intro h
        obtain ⟨w0, d, w, rfl, h1, h2, h3⟩ := (ih y).2 h
        refine ⟨c :: w0, d, w, by simp, ?_, h2, h3⟩
        intro e he
        rcases List.mem_cons.1 he with rfl | he
        · exact hcs
        · exact h1 e he
    · have hns : ¬ SChar c := fun h => hc ((isS_iff c).2 h)
      have key : c :: collapseLoop false t = y ++ [' '] → ∃ d w, c :: t = d ++ w ∧ OptS w ∧ Spaced (d.map .chr) (y.map .chr) := by
        intro h
        cases y with
        | nil => simp at h; exact absurd (.inl h.1) hns
        | cons b y =>
          simp at h
          obtain ⟨rfl, h⟩ := h
          obtain ⟨d, w, rfl, h1, h2⟩ := (ih y).1 h
          exact ⟨c :: d, w, rfl, h1, .chr c hns h2⟩
      simp only [collapseLoop, hc]
      refine ⟨key, fun h => ?_⟩
      obtain ⟨d, w, e, h1, h2⟩ := key h
      exact ⟨[], d, w, by simpa using e, by intro c hc; simp at hc, h1, h2⟩

theorem collapse_nil {m : Bool} {s : Str} (h : collapseLoop m s = []) : OptS s := by
  cases m with
  | true =>
    obtain ⟨w, u, e, hw, hsp⟩ := (collapse_spaced s [] [] .nil).2
    rw [h] at hsp
    have hu : u = [] := by
      cases u with
      | nil => rfl
      | cons d u => exact absurd (spaced_nil (by simpa using hsp)) (by simp)
    subst hu
    rw [e, List.append_nil]
    exact hw
  | false =>
    cases s with
    | nil => intro c hc; simp at hc
    | cons c t =>
      simp only [collapseLoop] at h
      split at h <;> simp at h

theorem collapse_false {s : Str} (h : s ≠ []) : collapse false s = collapseLoop false s := by
  unfold collapse
  rw [if_neg]
  cases s with
  | nil => exact absurd rfl h
  | cons c t =>
    simp only [collapseLoop]
    split <;> simp

theorem collapse_true_head {s t : Str} : collapseLoop true s ≠ ' ' :: t := by
  induction s with
  | nil => simp [collapseLoop]
  | cons c s ih =>
    simp only [collapseLoop, if_true]
    split
    · exact ih
    · rename_i hc
      intro h
      exact hc (by rw [(List.cons.inj h).1]; decide)

/-- Inside the content of an element, with white space at the end perhaps dropped. -/
def Tail (s t : List Spec.Node) : Prop := ∃ (u : List Spec.Node) (w : Str), s = u ++ w.map .chr ∧ OptS w ∧ Spaced u t

theorem tail_elem {n : Str} {as : List (Str × Str)} {ks ks' s t : List Spec.Node} (hk : Tidied ks ks') (h : Tail s t) :
    Tail (.elem n as ks :: s) (.elem n as ks' :: t) := by
  obtain ⟨u, w, rfl, hw, hsp⟩ := h
  exact ⟨.elem n as ks :: u, w, by simp, hw, .elem hk hsp⟩

/-- The same strings, and elements with tidied content. -/
inductive Rel : List PyXml.Node → List PyXml.Node → Prop
  | nil : Rel [] []
  | text {s : Str} {l l' : List PyXml.Node} : s ≠ [] → Rel l l' → Rel (.text s :: l) (.text s :: l')
  | elem {n : Str} {as : List (Str × Str)} {ks ks' l l' : List PyXml.Node} : Tidied (flatAll ks) (flatAll ks') → Rel l l' →
      Rel (.elem n as ks :: l) (.elem n as ks' :: l')

theorem canonLoop_rel {l l' : List PyXml.Node} (h : Rel l l') :
    Tail (flatAll l) (flatAll (canonLoop none false l')) ∧
    (∀ d : Str, d ≠ [] → Tail (d.map .chr ++ flatAll l) (flatAll (canonLoop (some d) false l'))) ∧
    (∀ d : Str, d ≠ [] → ∃ w u, d.map .chr ++ flatAll l = w.map Spec.Node.chr ++ u ∧ OptS w ∧
      Tail u (flatAll (canonLoop (some d) true l'))) := by
  have oS : OptS [] := by intro c hc; simp at hc
  induction h with
  | nil =>
    refine ⟨⟨[], [], rfl, oS, .nil⟩, ?_, ?_⟩
    · intro d hd
      simp only [canonLoop, collapse_false hd, Bool.false_eq_true, if_false]
      split
      · rename_i e
        obtain ⟨d1, w, rfl, hw, hsp⟩ := (collapse_last d []).1 e
        have : d1 = [] := by
          cases d1 with
          | nil => rfl
          | cons b d1 => exact absurd (spaced_nil (by simpa using hsp)) (by simp)
        subst this
        exact ⟨[], w, by simp [flatAll], hw, .nil⟩
      · split
        · rename_i e
          obtain ⟨y, e⟩ := List.getLast?_eq_some_iff.1 e
          obtain ⟨d1, w, rfl, hw, hsp⟩ := (collapse_last d y).1 e
          rw [e]
          exact ⟨d1.map .chr, w, by simp [flatAll], hw, by simpa [flatAll, flat] using hsp⟩
        · exact ⟨d.map .chr, [], by simp [flatAll], oS, by
            simpa [flatAll, flat] using (collapse_spaced d [] [] .nil).1⟩
    · intro d hd
      simp only [canonLoop, if_true]
      split
      · rename_i e
        have hs : OptS d := by
          unfold collapse at e
          split at e
          · rename_i h; exact collapse_nil h
          · exact absurd e collapse_true_head
        refine ⟨[], d.map .chr, by simp [flatAll], oS, d.map .chr, [], by simp, oS, ?_⟩
        have := Spaced.run (w := d) ⟨hd, hs⟩ .nil
        simpa [flatAll, flat] using this
      · rename_i hne
        have e0 : collapse true d = collapseLoop true d := by
          unfold collapse
          split
          · rename_i h
            exact absurd (by unfold collapse; rw [if_pos h]) hne
          · rfl
        rw [e0]
        split
        · rename_i e
          obtain ⟨y, e⟩ := List.getLast?_eq_some_iff.1 e
          obtain ⟨w0, d1, w, rfl, hw0, hw, hsp⟩ := (collapse_last d y).2 e
          rw [e]
          refine ⟨w0, (d1 ++ w).map .chr, by simp [flatAll], hw0, d1.map .chr, w, by simp, hw, by simpa [flatAll, flat] using hsp⟩
        · obtain ⟨w, u, rfl, hw, hsp⟩ := (collapse_spaced d [] [] .nil).2
          exact ⟨w, u.map .chr, by simp [flatAll], hw, u.map .chr, [], by simp, oS, by simpa [flatAll, flat] using hsp⟩
  | @text s l l' hs _ ih =>
    obtain ⟨_, i2, i3⟩ := ih
    refine ⟨?_, ?_, ?_⟩
    · rw [canonLoop]
      simpa [flatAll, flat] using i2 s hs
    · intro d hd
      rw [canonLoop]
      simpa [flatAll, flat] using i2 (d ++ s) (by simp [hd])
    · intro d hd
      rw [canonLoop]
      simpa [flatAll, flat] using i3 (d ++ s) (by simp [hd])
  | @elem n as ks ks' l l' hk _ ih =>
    obtain ⟨i1, _, _⟩ := ih
    have te := tail_elem (n := n) (as := as) hk i1
    refine ⟨?_, ?_, ?_⟩
    · rw [canonLoop]
      simpa [flatAll, flat] using te
    · intro d hd
      rw [canonLoop, if_pos (.inl rfl), collapse_false hd]
      obtain ⟨u, w, e, hw, hsp⟩ := te
      have := (collapse_spaced d _ _ hsp).1
      refine ⟨d.map .chr ++ u, w, ?_, hw, by simpa [flatAll, flat] using this⟩
      simp only [flatAll, flat]
      rw [List.append_assoc, ← e]
      rfl
    · intro d hd
      rw [canonLoop]
      obtain ⟨u, w, e, hw, hsp⟩ := te
      split
      · rename_i hne
        have hne := hne.resolve_left (by simp)
        have e0 : collapse true d = collapseLoop true d := by
          unfold collapse
          split
          · rename_i h
            exact absurd (by unfold collapse; rw [if_pos h]) hne
          · rfl
        rw [e0]
        obtain ⟨w0, u0, rfl, hw0, hsp0⟩ := (collapse_spaced d _ _ hsp).2
        refine ⟨w0, u0.map .chr ++ (u ++ w.map .chr), ?_, hw0, u0.map .chr ++ u, w, by simp, hw,
          by simpa [flatAll, flat] using hsp0⟩
        simp only [flatAll, flat]
        rw [← e]
        simp
      · rename_i hne
        have e1 : collapse true d = [' '] := Classical.byContradiction fun h => hne (.inr h)
        have hs : OptS d := by
          unfold collapse at e1
          split at e1
          · rename_i h; exact collapse_nil h
          · exact absurd e1 collapse_true_head
        refine ⟨d, u ++ w.map .chr, ?_, hs, u, w, rfl, hw, by simpa [flatAll, flat] using hsp⟩
        simp only [flatAll, flat]
        rw [← e]
        rfl

theorem canonKids_rel {l l' : List PyXml.Node} (h : Rel l l') : Tidied (flatAll l) (flatAll (canonKids l')) := by
  have oS : OptS [] := by intro c hc; simp at hc
  have fin : ∀ (w : Str) (s u t : List Spec.Node), s = w.map .chr ++ u → OptS w → Tail u t → Tidied s t := by
    rintro w s u t rfl hw ⟨v, w', rfl, hw', hsp⟩
    have := Tidied.mk hw hw' hsp
    simpa using this
  cases h with
  | nil => exact Tidied.mk (w := []) (w' := []) oS oS .nil
  | @text s l l' hs hl =>
    cases hl with
    | nil =>
      simp only [canonKids]
      unfold collapse
      split
      · rename_i e
        have := Tidied.mk (w := []) (w' := []) oS oS (Spaced.run (w := s) ⟨hs, collapse_nil e⟩ .nil)
        simpa [flatAll, flat] using this
      · obtain ⟨w, u, rfl, hw, hsp⟩ := (collapse_spaced s [] [] .nil).2
        have := Tidied.mk (w' := []) hw oS hsp
        simpa [flatAll, flat] using this
    | text hs' hl' =>
      obtain ⟨w, u, e, hw, ht⟩ := (canonLoop_rel (.text hs' hl')).2.2 s hs
      simp only [canonKids]
      exact fin w _ u _ (by simpa [flatAll, flat] using e) hw ht
    | elem hk' hl' =>
      obtain ⟨w, u, e, hw, ht⟩ := (canonLoop_rel (.elem hk' hl')).2.2 s hs
      simp only [canonKids]
      exact fin w _ u _ (by simpa [flatAll, flat] using e) hw ht
  | @elem n as ks ks' l l' hk hl =>
    have te := tail_elem (n := n) (as := as) hk (canonLoop_rel hl).1
    cases hl with
    | nil =>
      simp only [canonKids]
      exact fin [] _ _ _ rfl oS (by simpa [flatAll, flat, canonLoop] using te)
    | text hs' hl' =>
      simp only [canonKids]
      exact fin [] _ _ _ rfl oS (by simpa [flatAll, flat] using te)
    | elem hk' hl' =>
      simp only [canonKids]
      exact fin [] _ _ _ rfl oS (by simpa [flatAll, flat] using te)

mutual
theorem canon_tidied : (t : PyXml.Node) → Unspaced t → (l l' : List PyXml.Node) → Rel l l' → Rel (t :: l) (canon false t :: l')
  | .text s, h, l, l', hl => by
    cases h with
    | text hs => simp only [canon]; exact .text hs hl
  | .elem n as ks, h, l, l', hl => by
    cases h with
    | elem ha hk =>
      have hp : preserves false as = false := by
        unfold preserves
        split
        · rename_i v e
          exact absurd rfl (ha ("xml:space".toList, v) (attr_mem e))
        · rfl
      simp only [canon, hp, Bool.false_eq_true, if_false]
      exact .elem (canonKids_rel (canonAll_tidied ks hk)) hl
theorem canonAll_tidied : (l : List PyXml.Node) → (∀ k ∈ l, Unspaced k) → Rel l (canonAll false l)
  | [], _ => by simp only [canonAll]; exact .nil
  | k :: r, h => by
    simp only [canonAll]
    exact canon_tidied k (h k List.mem_cons_self) _ _ (canonAll_tidied r (fun k hk => h k (List.mem_cons_of_mem _ hk)))
end

end PX

/-- **Otherwise only white space changes**: if no element has `xml:space`, the tree that is written has the same elements and
attributes and the same characters other than white space, in the same order; each run of white space between them is written as one
space, and one at the start or the end of an element's content may be dropped. -/
theorem py_xml_words (n : Str) (as : List (Str × Str)) (ks : List PyXml.Node) (h : Unspaced (.elem n as ks)) :
    Spaced (flat (.elem n as ks)) (flat (canon false (.elem n as ks))) := by
  have := canon_tidied _ h [] [] .nil
  cases hc : canon false (.elem n as ks) with
  | text s => rw [hc] at this; cases this
  | elem n' as' ks' =>
    rw [hc] at this
    cases this with
    | elem hk _ =>
      simp only [flat]
      exact .elem hk .nil

end Verif.Props
