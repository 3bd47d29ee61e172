import Verif.Props.PyXmlFacts

/-!
# What the parser accepts

Well-formed documents that it refuses, and what an accepted document is.
-/

namespace Verif.Props

open Verif Verif.Names Verif.Spec Verif.PyXml
open Verif.Props.PX (flat)
open PX

/-! ## Well-formed documents that are refused -/

/-- What the parser does with the source is not to accept it. -/
def PX.refuses (n : Nat) (s : Str) : Bool :=
  match PyXml.read n s with
  | some (.error _) => true
  | _ => false

theorem PX.refuses_never {n : Nat} {s : Str} (h : PX.refuses n s = true) (m : Nat) (t : PyXml.Node) :
    PyXml.read m s ≠ some (.ok t) := by
  unfold PX.refuses at h
  split at h
  · rename_i e he
    intro hm
    have h1 := read_mono (m := n + m) (by omega) he
    have h2 := read_mono (m := n + m) (by omega) hm
    rw [h1] at h2
    cases h2
  · cases h

/-- **Well-formed documents are refused**: one with a processing instruction that ends with two question marks, one
whose name is not in the basic multilingual plane, and one that begins with a processing instruction whose target
begins with `xml`. -/
theorem py_xml_reads_refuted :
    (XWellFormed "<a><?p x??></a>".toList (.elem ['a'] [] []) ∧ ∀ n t, PyXml.read n "<a><?p x??></a>".toList ≠ some (.ok t)) ∧
    (XWellFormed ['<', Char.ofNat 0x10000, '/', '>'] (.elem [Char.ofNat 0x10000] [] []) ∧
      ∀ n t, PyXml.read n ['<', Char.ofNat 0x10000, '/', '>'] ≠ some (.ok t)) ∧
    (XWellFormed "<?xml-x?><a/>".toList (.elem ['a'] [] []) ∧ ∀ n t, PyXml.read n "<?xml-x?><a/>".toList ≠ some (.ok t)) := by
  have nm : ∀ c : Char, XmlNameStart c → XmlName [c] := fun c h => ⟨c, [], rfl, h, by simp⟩
  have oS : OptS [] := by intro c hc; simp at hc
  have sta : XmlNameStart 'a' := by simp only [XmlNameStart]; decide
  have stp : XmlNameStart 'p' := by simp only [XmlNameStart]; decide
  have ea : XElement XmlName PIText ('<' :: ['a'] ++ [] ++ [] ++ ['/', '>']) (.elem ['a'] [] []) :=
    .empty (nm 'a' sta) .nil (by simp) oS
  refine ⟨⟨?_, refuses_never (n := 30) (by decide +kernel)⟩, ⟨?_, refuses_never (n := 30) (by decide +kernel)⟩,
    ⟨?_, refuses_never (n := 30) (by decide +kernel)⟩⟩
  · have hpi : XPI XmlName PIText ("p x?".toList) := by
      refine ⟨['p'], [' ', 'x', '?'], rfl, nm 'p' stp, by decide +kernel, .inr ⟨[' '], ['x', '?'], rfl, ⟨by simp, ?_⟩, ?_, ?_⟩⟩
      · intro c hc
        simp at hc
        exact .inl hc
      · exact lit_chars _ (by decide +kernel)
      · rintro ⟨u, v, e⟩
        match u, e with
        | [], e => simp at e
        | [_], e => simp at e
        | _ :: _ :: _, e =>
          have := congrArg List.length e
          simp at this
    have hk : XContent XmlName PIText ("<?".toList ++ "p x?".toList ++ "?>".toList ++ []) [] := .pi hpi .nil
    have he : XElement XmlName PIText ('<' :: ['a'] ++ [] ++ [] ++ '>' :: ("<?".toList ++ "p x?".toList ++ "?>".toList ++ []) ++
      '<' :: '/' :: ['a'] ++ [] ++ ['>']) (.elem ['a'] [] []) := .elem (nm 'a' sta) .nil (by simp) oS oS hk
    exact ⟨_, .inl rfl, [], [], _, [], by decide +kernel, .inl ⟨rfl, trivial⟩, .nil, he, .nil⟩
  · have st : XmlNameStart (Char.ofNat 0x10000) := by simp only [XmlNameStart]; decide
    have he : XElement XmlName PIText ('<' :: [Char.ofNat 0x10000] ++ [] ++ [] ++ ['/', '>']) (.elem [Char.ofNat 0x10000] [] []) :=
      .empty (nm _ st) .nil (by simp) oS
    exact ⟨_, .inl rfl, [], [], _, [], by decide +kernel, .inl ⟨rfl, trivial⟩, .nil, he, .nil⟩
  · have hn : XmlName "xml-x".toList := by
      refine ⟨'x', ['m', 'l', '-', 'x'], rfl, ?_, ?_⟩
      · simp only [XmlNameStart]; decide
      · intro d hd
        simp at hd
        rcases hd with rfl | rfl | rfl | rfl <;> simp only [XmlNameChar, XmlNameStart] <;> decide
    have hpi : XPI XmlName PIText ("xml-x".toList) :=
      ⟨"xml-x".toList, [], by simp, hn, by decide +kernel, .inl rfl⟩
    have hm : XMisc XmlName PIText ("<?".toList ++ "xml-x".toList ++ "?>".toList ++ []) := .pi hpi .nil
    exact ⟨_, .inl rfl, [], _, _, [], by decide +kernel, .inl ⟨rfl, trivial⟩, hm, ea, .nil⟩

namespace PX

/-! ## What the parsing functions answer -/

theorem span_sound (p : Char → Bool) (s : Str) :
    s = (span p s).1 ++ (span p s).2 ∧ (∀ c ∈ (span p s).1, p c = true) ∧ Stops p (span p s).2 := by
  induction s with
  | nil => exact ⟨rfl, by simp [span], by intro c t h; simp [span] at h⟩
  | cons c t ih =>
    by_cases hc : p c = true
    · simp only [span, hc, if_true]
      refine ⟨?_, ?_, ih.2.2⟩
      · rw [List.cons_append, ← ih.1]
      · intro d hd
        rcases List.mem_cons.1 hd with rfl | hd
        · exact hc
        · exact ih.2.1 d hd
    · simp only [span, hc]
      exact ⟨rfl, by simp, by intro d u h; simp at h; rw [← h.1]; simpa using hc⟩

theorem parseS_sound (s : Str) : ∃ w r, parseS s = (w, r) ∧ s = w ++ r ∧ OptS w := by
  have := span_sound isS s
  exact ⟨_, _, rfl, this.1, fun c hc => (isS_iff c).1 (this.2.1 c hc)⟩

theorem needName_sound {s n r : Str} (h : needName s = .ok (n, r)) : s = n ++ r ∧ XmlName n := by
  unfold needName at h
  split at h
  · rename_i x e
    cases h
    cases s with
    | nil => simp [parseName] at e
    | cons c t =>
      simp only [parseName] at e
      split at e
      · rename_i hc
        cases e
        have := span_sound isNameChar t
        exact ⟨by rw [List.cons_append, ← this.1], c, _, rfl, name_start_sound c hc, fun d hd => name_char_sound d (this.2.1 d hd)⟩
      · cases e
  · cases h

theorem eq_sound {s r : Str} (h : PyXml.eq s = .ok r) : ∃ w w', s = w ++ '=' :: w' ++ r ∧ OptS w ∧ OptS w' := by
  obtain ⟨w, r1, e1, rfl, hw⟩ := parseS_sound s
  unfold PyXml.eq at h
  rw [e1] at h
  dsimp only at h
  split at h
  · rename_i r2 e
    have := need_ok e
    subst this
    obtain ⟨w', r3, e3, rfl, hw'⟩ := parseS_sound r2
    rw [e3] at h
    cases h
    exact ⟨w, w', by simp, hw, hw'⟩
  · cases h

theorem quote_sound {s r : Str} {q : Char} (h : PyXml.quote s = .ok (q, r)) : s = q :: r ∧ Quote q := by
  cases s with
  | nil => cases h
  | cons c t =>
    simp only [PyXml.quote] at h
    split at h
    · rename_i hc
      cases h
      exact ⟨rfl, hc⟩
    · cases h

theorem closeQuote_sound {s r : Str} {q : Char} (h : closeQuote q s = .ok r) : s = q :: r := by
  cases s with
  | nil => cases h
  | cons c t =>
    simp only [closeQuote] at h
    split at h
    · rename_i hc
      cases h
      rw [hc]
    · cases h

theorem hexNumber_of (ds : Str) (h : ∀ d ∈ ds, isHex d = true) (hne : ds ≠ []) : HexNumber ds (number 16 ds) := by
  rcases List.eq_nil_or_concat ds with rfl | ⟨l, c, rfl⟩
  · exact absurd rfl hne
  · have hc := isHex_digit (h c (by simp))
    by_cases hl : l = []
    · subst hl
      have e : number 16 ([].concat c) = digitVal c := by simp [number]
      rw [e]
      exact .one hc
    · have ih := hexNumber_of l (fun d hd => h d (by simp [hd])) hl
      have e : number 16 (l.concat c) = 16 * number 16 l + digitVal c := by simp [number]
      rw [e, List.concat_eq_append]
      exact .more ih hc
termination_by ds.length
decreasing_by simp_all

theorem refChar_sound {n : Nat} {s r : Str} {c : Char} (h : refChar n s = .ok (c, r)) :
    s = ';' :: r ∧ c.toNat = n ∧ XmlChar c := by
  unfold refChar at h
  split at h
  · cases h
  · split at h
    · cases h
    · rename_i hn r' e
      split at h
      · rename_i hi
        cases h
        have hv : n.isValidChar := by
          simp only [isChar, Bool.or_eq_true, beq_iff_eq, Bool.and_eq_true, decide_eq_true_eq] at hi
          unfold Nat.isValidChar
          omega
        have hto : (Char.ofNat n).toNat = n := by
          rw [Char.ofNat, dif_pos hv]
          rfl
        exact ⟨need_ok e, hto, (isChar_iff _).1 (by rw [hto]; exact hi)⟩
      · cases h

theorem reference_sound {s r : Str} {c : Char} (h : reference s = .ok (c, r)) : ∃ x, s = x ++ ';' :: r ∧ XRef x c := by
  unfold reference at h
  split at h
  · rename_i t
    unfold charRef at h
    split at h
    · rename_i u e
      have := lit_some e
      subst this
      split at h
      · cases h
      · rename_i hne
        have hs := span_sound isHex u
        obtain ⟨h1, h2, h3⟩ := refChar_sound h
        refine ⟨'#' :: 'x' :: (span isHex u).1, ?_, .hex ?_ h3⟩
        · simp only [List.cons_append]; rw [← h1, ← hs.1]; rfl
        · rw [h2]; exact hexNumber_of _ hs.2.1 hne
    · split at h
      · cases h
      · rename_i hne
        have hs := span_sound isDec t
        obtain ⟨h1, h2, h3⟩ := refChar_sound h
        refine ⟨'#' :: (span isDec t).1, ?_, .pre (.num _ _ hne (fun d hd => (isDec_iff d).1 (hs.2.1 d hd)) ?_ h3)⟩
        · rw [List.cons_append, ← h1, ← hs.1]
        · rw [h2]
          exact (number_dec _ 0 (fun d hd => (isDec_iff d).1 (hs.2.1 d hd))).symm
  · unfold entityRef at h
    split at h
    · cases h
    · rename_i name r1 e1
      split at h
      · cases h
      · rename_i r2 e2
        have e2 := need_ok e2
        have e1 := needName_sound e1
        subst e2
        split at h
        · rename_i d e3
          cases h
          refine ⟨name, e1.1, .pre ?_⟩
          unfold predefined at e3
          split at e3
          · rename_i hh; subst hh; cases e3; exact .lt
          · split at e3
            · rename_i hh; subst hh; cases e3; exact .gt
            · split at e3
              · rename_i hh; subst hh; cases e3; exact .apos
              · split at e3
                · rename_i hh; subst hh; cases e3; exact .quot
                · split at e3
                  · rename_i hh; subst hh; cases e3; exact .amp
                  · cases e3
        · cases h

theorem pre_ok {c : Char} {x} {v r : Str} (h : pre c x = some (.ok (v, r))) : ∃ u, x = some (.ok (u, r)) ∧ v = c :: u := by
  unfold pre at h
  split at h
  · cases h; exact ⟨_, rfl, rfl⟩
  · rename_i hne
    subst h
    exact absurd rfl (hne v r)

theorem attLoop_sound {q : Char} : (n : Nat) → (s v r : Str) → AllChars s → attLoop q n s = some (.ok (v, r)) →
    ∃ x, s = x ++ q :: r ∧ XAttVal q x v
  | 0, _, _, _, _, h => by simp [attLoop] at h
  | n + 1, [], _, _, _, h => by simp [attLoop, bad] at h
  | n + 1, c :: t, v, r, ha, h => by
    rw [attLoop] at h
    split at h
    · rename_i hc
      cases h
      exact ⟨[], by rw [hc]; rfl, .nil⟩
    · rename_i hq
      split at h
      · rename_i hc
        split at h
        · cases h
        · rename_i d u e
          obtain ⟨v', hx, rfl⟩ := pre_ok h
          obtain ⟨x, rfl, hr⟩ := reference_sound e
          obtain ⟨y, rfl, hy⟩ := attLoop_sound n u v' r (allChars_cons.1 (allChars_app.1 (allChars_cons.1 ha).2).2).2 hx
          subst hc
          exact ⟨'&' :: x ++ ';' :: y, by simp, .ref hr hy⟩
      · rename_i hamp
        split at h
        · rename_i hs
          obtain ⟨v', hx, rfl⟩ := pre_ok h
          obtain ⟨y, rfl, hy⟩ := attLoop_sound n t v' r (allChars_cons.1 ha).2 hx
          exact ⟨c :: y, by simp, .space c ((isS_iff c).1 hs) hy⟩
        · rename_i hs
          split at h
          · cases h
          · rename_i hlt
            obtain ⟨v', hx, rfl⟩ := pre_ok h
            obtain ⟨y, rfl, hy⟩ := attLoop_sound n t v' r (allChars_cons.1 ha).2 hx
            exact ⟨c :: y, by simp, .chr c (allChars_cons.1 ha).1 hlt hamp hq (fun h => hs ((isS_iff c).2 h)) hy⟩

theorem attSpec_sound {m : Nat} {s n v r : Str} (ha : AllChars s) (h : attSpec m s = some (.ok (n, v, r))) :
    ∃ w1 w2 q x, s = n ++ w1 ++ '=' :: w2 ++ q :: x ++ q :: r ∧ XmlName n ∧ OptS w1 ∧ OptS w2 ∧ Quote q ∧ XAttVal q x v := by
  unfold attSpec at h
  split at h
  · cases h
  · rename_i name r1 e1
    split at h
    · cases h
    · rename_i r2 e2
      split at h
      · cases h
      · rename_i q r3 e3
        split at h
        · cases h
        · cases h
        · rename_i v' r4 e4
          cases h
          obtain ⟨rfl, hn⟩ := needName_sound e1
          obtain ⟨w1, w2, rfl, hw1, hw2⟩ := eq_sound e2
          obtain ⟨rfl, hq⟩ := quote_sound e3
          have ha' : AllChars r3 := by
            simp only [List.append_assoc, List.cons_append, allChars_app, allChars_cons] at ha
            exact ha.2.2.2.2.2
          obtain ⟨x, rfl, hx⟩ := attLoop_sound _ _ _ _ ha' e4
          exact ⟨w1, w2, q, x, by simp, hn, hw1, hw2, hq, hx⟩

theorem stagLoop_sound : (n : Nat) → (acc : List (Str × Str)) → (s : Str) → (as : List (Str × Str)) → (b : Bool) → (r : Str) →
    AllChars s → (acc.map Prod.fst).Nodup → stagLoop n acc s = some (.ok (as, b, r)) →
    ∃ x as' w, s = x ++ w ++ tagEnd b ++ r ∧ XAttrs XmlName x as' ∧ OptS w ∧ as = acc ++ as' ∧ (as.map Prod.fst).Nodup
  | 0, _, _, _, _, _, _, _, h => by simp [stagLoop] at h
  | n + 1, acc, s, as, b, r, ha, hd, h => by
    obtain ⟨w, u, e, rfl, hw⟩ := parseS_sound s
    rw [stagLoop, e] at h
    dsimp only at h
    split at h
    · cases h
      exact ⟨[], [], w, by simp [tagEnd], .nil, hw, by simp, hd⟩
    · split at h
      · cases h
      · rename_i t r' e'
        cases h
        have := need_ok e'
        subst this
        exact ⟨[], [], w, by simp [tagEnd], .nil, hw, by simp, hd⟩
    · split at h
      · cases h
      · rename_i hne
        split at h
        · cases h
        · cases h
        · rename_i name v r' e'
          split at h
          · cases h
          · rename_i hany
            obtain ⟨w1, w2, q, x, rfl, hn, hw1, hw2, hq, hx⟩ := attSpec_sound (allChars_app.1 ha).2 e'
            have hd' : ((acc ++ [(name, v)]).map Prod.fst).Nodup := by
              simp only [List.map_append, List.map_cons, List.map_nil, List.nodup_append]
              refine ⟨hd, by simp, ?_⟩
              intro a hmem b hb
              simp at hb
              subst hb
              rintro rfl
              obtain ⟨p, hp, hp'⟩ := List.mem_map.1 hmem
              exact hany (List.any_eq_true.2 ⟨p, hp, by simpa using hp'⟩)
            have ha' : AllChars r' := by
              simp only [List.append_assoc, List.cons_append, allChars_app, allChars_cons] at ha
              exact ha.2.2.2.2.2.2.2.2
            obtain ⟨y, as', w', rfl, hy, hw', rfl, hnd⟩ := stagLoop_sound n _ _ _ _ _ ha' hd' h
            refine ⟨w ++ name ++ w1 ++ '=' :: w2 ++ q :: x ++ q :: y, (name, v) :: as', w', by simp,
              .cons ⟨hne, hw⟩ hn hw1 hw2 hq hx hy, hw', by simp, hnd⟩

theorem stag_sound {m : Nat} {s n r : Str} {as : List (Str × Str)} {b : Bool} (ha : AllChars s)
    (h : stag m s = some (.ok (n, as, b, r))) :
    ∃ x w, s = '<' :: n ++ x ++ w ++ tagEnd b ++ r ∧ XmlName n ∧ XAttrs XmlName x as ∧ (as.map Prod.fst).Nodup ∧ OptS w := by
  unfold stag at h
  split at h
  · cases h
  · rename_i r1 e1
    split at h
    · cases h
    · rename_i name r2 e2
      split at h
      · cases h
      · cases h
      · rename_i as' b' r3 e3
        cases h
        have := need_ok e1
        subst this
        obtain ⟨rfl, hn⟩ := needName_sound e2
        have ha' : AllChars r2 := (allChars_app.1 (allChars_app.1 ha).2).2
        obtain ⟨x, as', w, rfl, hx, hw, rfl, hnd⟩ := stagLoop_sound _ _ _ _ _ _ ha' (by simp) e3
        exact ⟨x, w, by simp, hn, by simpa using hx, by simpa using hnd, hw⟩

theorem etag_sound {s n r : Str} (h : etag s = .ok (n, r)) : ∃ w, s = '<' :: '/' :: n ++ w ++ '>' :: r ∧ OptS w := by
  unfold etag at h
  split at h
  · cases h
  · rename_i r1 e1
    split at h
    · cases h
    · rename_i name r2 e2
      split at h
      · cases h
      · rename_i r3 e3
        cases h
        have := need_ok e1
        subst this
        obtain ⟨rfl, hn⟩ := needName_sound e2
        obtain ⟨w, u, e, rfl, hw⟩ := parseS_sound r2
        rw [e] at e3
        have := need_ok e3
        dsimp only at this
        subst this
        exact ⟨w, by simp, hw⟩

theorem charData_sound (s x r : Str) (ns : List Spec.Node) (ha : AllChars s) (hr : (charData s).2 = x ++ r)
    (hx : XContent XmlName PIText x ns) :
    s = (charData s).1 ++ x ++ r ∧ XContent XmlName PIText ((charData s).1 ++ x) ((charData s).1.map .chr ++ ns) := by
  induction s with
  | nil => simp [charData] at hr ⊢; exact ⟨⟨hr.1, hr.2⟩, hx⟩
  | cons c t ih =>
    rw [charData] at hr ⊢
    split at hr
    · rename_i hc
      rw [if_pos hc]
      exact ⟨by simpa using hr, by simpa using hx⟩
    · rename_i hc
      rw [if_neg hc]
      split at hr
      · rename_i hp
        rw [if_pos hp]
        exact ⟨by simpa using hr, by simpa using hx⟩
      · rename_i hp
        rw [if_neg hp]
        obtain ⟨h1, h2⟩ := ih (allChars_cons.1 ha).2 hr
        refine ⟨by simp only [List.cons_append]; rw [← h1], ?_⟩
        simp only [List.cons_append, List.map_cons]
        refine .chr c (allChars_cons.1 ha).1 (fun h => hc (.inl h)) (fun h => hc (.inr h)) ?_ h2
        rintro ⟨y, hy⟩
        apply hp
        have hy' := (List.cons.inj hy).1
        refine ⟨hy'.symm, ?_⟩
        have : c :: t = [']', ']', '>'] ++ (y ++ r) := by
          rw [h1, ← List.cons_append, ← hy]; simp
        rw [this, lit_app]
        rfl

theorem cdata_sound (s r : Str) (h : (cdata s).2 = [']', ']', '>'] ++ r) :
    s = (cdata s).1 ++ [']', ']', '>'] ++ r ∧ ¬ Occurs [']', ']', '>'] ((cdata s).1 ++ [']', ']']) := by
  induction s with
  | nil => simp [cdata] at h
  | cons c t ih =>
    rw [cdata] at h ⊢
    split at h
    · rename_i hc
      rw [if_pos hc]
      refine ⟨by simpa using h, ?_⟩
      rintro ⟨u, v, e⟩
      have := congrArg List.length e
      simp at this
      omega
    · rename_i hc
      rw [if_neg hc]
      obtain ⟨h1, h2⟩ := ih h
      refine ⟨by simp only [List.cons_append]; rw [← h1], ?_⟩
      rintro ⟨u, v, e⟩
      cases u with
      | nil =>
        apply hc
        have e1 : c :: t = [']', ']', '>'] ++ (v ++ ('>' :: r)) := by
          have : c :: t = (c :: (cdata t).1 ++ [']', ']']) ++ '>' :: r := by
            conv => lhs; rw [h1]
            simp
          rw [this]
          simp only [] at e
          rw [← e]
          simp
        rw [e1, lit_app]
        rfl
      | cons d u =>
        simp at e
        exact h2 ⟨u, v, by simp [e.2]⟩

/-- Without the markup whose end the parser does not check. -/
def Tidy (s : Str) : Prop := ¬ Occurs ['<', '!', '-'] s ∧ ¬ Occurs ['<', '?'] s

theorem tidy_suffix {a b : Str} (h : Tidy (a ++ b)) : Tidy b := by
  constructor
  · rintro ⟨u, v, e⟩; exact h.1 ⟨a ++ u, v, by rw [← e]; simp⟩
  · rintro ⟨u, v, e⟩; exact h.2 ⟨a ++ u, v, by rw [← e]; simp⟩

theorem preData_ok {d : Str} {x} {ks} {r : Str} (h : preData d x = some (.ok (ks, r))) :
    ∃ ks', x = some (.ok (ks', r)) ∧ ks = addData d ks' := by
  unfold preData at h
  split at h
  · cases h; exact ⟨_, rfl, rfl⟩
  · rename_i hne
    subst h
    exact absurd rfl (hne ks r)

theorem preElem_ok {d : PyXml.Node} {x} {ks} {r : Str} (h : preElem d x = some (.ok (ks, r))) :
    ∃ ks', x = some (.ok (ks', r)) ∧ ks = d :: ks' := by
  unfold preElem at h
  split at h
  · cases h; exact ⟨_, rfl, rfl⟩
  · rename_i hne
    subst h
    exact absurd rfl (hne ks r)

theorem both_sound : (n : Nat) →
    (∀ (s r : Str) (t : PyXml.Node), AllChars s → Tidy s → element n s = some (.ok (t, r)) →
      ∃ x root, s = x ++ r ∧ flat t = [root] ∧ XElement XmlName PIText x root) ∧
    (∀ (s r : Str) (ks : List PyXml.Node), AllChars s → Tidy s → content n s = some (.ok (ks, r)) →
      ∃ x, s = x ++ r ∧ XContent XmlName PIText x (flat.flatAll ks))
  | 0 => ⟨fun _ _ _ _ _ h => by simp [element] at h, fun _ _ _ _ _ h => by simp [content] at h⟩
  | n + 1 => by
    obtain ⟨ihe, ihc⟩ := both_sound n
    constructor
    · intro s r t ha ht h
      rw [element] at h
      split at h
      · cases h
      · cases h
      · rename_i name as r1 e1
        cases h
        obtain ⟨x, w, rfl, hn, hx, hd, hw⟩ := stag_sound ha e1
        exact ⟨_, _, rfl, by simp [flat, flat.flatAll], .empty hn hx hd hw⟩
      · rename_i name as r1 e1
        obtain ⟨x, w, rfl, hn, hx, hd, hw⟩ := stag_sound ha e1
        split at h
        · cases h
        · cases h
        · rename_i ks r2 e2
          obtain ⟨y, rfl, hy⟩ := ihc _ _ _ (allChars_app.1 ha).2 (tidy_suffix ht) e2
          split at h
          · cases h
          · rename_i name' r3 e3
            obtain ⟨w', rfl, hw'⟩ := etag_sound e3
            split at h
            · rename_i hnn
              subst hnn
              cases h
              exact ⟨_, _, by simp [tagEnd], by simp [flat], .elem hn hx hd hw hw' hy⟩
            · cases h
    · intro s r ks ha ht h
      cases s with
      | nil =>
        simp [content] at h
        obtain ⟨rfl, rfl⟩ := h
        exact ⟨[], rfl, .nil⟩
      | cons c t =>
        rw [content] at h
        split at h
        · rename_i hc
          subst hc
          split at h
          · rename_i t1 em
            exfalso
            unfold markup at em
            split at em
            · split at em
              · exact ht.1 ⟨[], _, rfl⟩
              · cases em
              · cases em
            · cases em
            · cases em
            · cases em
          · rename_i t1 em
            have e0 : t = '!' :: '[' :: t1 := by
              unfold markup at em
              split at em
              · split at em
                · cases em
                · cases em; rfl
                · cases em
              · cases em
              · cases em
              · cases em
            subst e0
            split at h
            · cases h
            · rename_i r1 e1
              have := need_ok e1
              subst this
              split at h
              · cases h
              · rename_i r2 e2
                obtain ⟨h1, h2⟩ := cdata_sound _ _ (need_ok e2)
                obtain ⟨ks', e3, rfl⟩ := preData_ok h
                have hs : '<' :: '!' :: '[' :: (['C', 'D', 'A', 'T', 'A', '['] ++ r1) =
                    ("<![CDATA[".toList ++ (cdata r1).1 ++ "]]>".toList) ++ r2 := by
                  conv => lhs; rw [h1]
                  simp
                rw [hs] at ha ht
                obtain ⟨x, rfl, hx⟩ := ihc _ _ _ (allChars_app.1 ha).2 (tidy_suffix ht) e3
                refine ⟨"<![CDATA[".toList ++ (cdata r1).1 ++ "]]>".toList ++ x, by rw [hs]; simp, ?_⟩
                rw [flatAll_addData]
                exact .cdata (allChars_app.1 (allChars_app.1 (allChars_app.1 ha).1).1).2 h2 hx
          · cases h
          · rename_i t1 em
            exfalso
            unfold markup at em
            split at em
            · split at em
              · cases em
              · cases em
              · cases em
            · exact ht.2 ⟨[], _, rfl⟩
            · cases em
            · cases em
          · cases h
            exact ⟨[], rfl, .nil⟩
          · split at h
            · cases h
            · cases h
            · rename_i e r1 e1
              obtain ⟨ks', e3, rfl⟩ := preElem_ok h
              obtain ⟨x, root, hs, hf, hx⟩ := ihe _ _ _ ha ht e1
              rw [hs] at ha ht ⊢
              obtain ⟨y, rfl, hy⟩ := ihc _ _ _ (allChars_app.1 ha).2 (tidy_suffix ht) e3
              refine ⟨x ++ y, by simp, ?_⟩
              rw [flat.flatAll, hf]
              cases hx with
              | @elem n' a w k w' as ks2 hn ha' hd hw hw' hk =>
                have := XContent.elem hn ha' hd hw hw' hk hy
                simpa using this
              | @empty n' a w as hn ha' hd hw =>
                have := XContent.empty hn ha' hd hw hy
                simpa using this
        · rename_i hlt
          split at h
          · rename_i hc
            subst hc
            split at h
            · cases h
            · rename_i d r1 e1
              obtain ⟨ks', e3, rfl⟩ := preData_ok h
              obtain ⟨x, rfl, hx⟩ := reference_sound e1
              have hs : '&' :: (x ++ ';' :: r1) = ('&' :: x ++ [';']) ++ r1 := by simp
              rw [hs] at ha ht
              obtain ⟨y, rfl, hy⟩ := ihc _ _ _ (allChars_app.1 ha).2 (tidy_suffix ht) e3
              refine ⟨'&' :: x ++ ';' :: y, by simp, ?_⟩
              rw [flatAll_addData]
              exact .ref hx hy
          · rename_i hamp
            obtain ⟨ks', e3, rfl⟩ := preData_ok h
            obtain ⟨u, hu⟩ : ∃ u, c :: t = u ++ (charData (c :: t)).2 := by
              have := charData_sound (c :: t) [] (charData (c :: t)).2 [] ha rfl .nil
              exact ⟨(charData (c :: t)).1, by simpa using this.1⟩
            have ha' : AllChars (charData (c :: t)).2 := by rw [hu] at ha; exact (allChars_app.1 ha).2
            have ht' : Tidy (charData (c :: t)).2 := by rw [hu] at ht; exact tidy_suffix ht
            obtain ⟨y, hy1, hy⟩ := ihc _ _ _ ha' ht' e3
            obtain ⟨h1, h2⟩ := charData_sound (c :: t) y r _ ha hy1 hy
            refine ⟨_, h1, ?_⟩
            rw [flatAll_addData]
            exact h2

theorem misc_sound : (n : Nat) → (s r : Str) → Tidy s → misc n s = some (.ok r) → ∃ w, s = w ++ r ∧ OptS w
  | 0, _, _, _, h => by simp [misc] at h
  | n + 1, s, r, ht, h => by
    rw [misc.eq_def] at h
    dsimp only at h
    split at h
    · cases h; exact ⟨[], rfl, by intro c hc; simp at hc⟩
    · rename_i c t
      split at h
      · rename_i hc
        obtain ⟨w, rfl, hw⟩ := misc_sound n t r (tidy_suffix (a := [c]) ht) h
        refine ⟨c :: w, rfl, ?_⟩
        intro d hd
        rcases List.mem_cons.1 hd with rfl | hd
        · exact (isS_iff _).1 hc
        · exact hw d hd
      · split at h
        · rename_i u e
          have := lit_some e
          exact absurd ⟨[], '-' :: u, by rw [this]; rfl⟩ ht.1
        · split at h
          · rename_i u e
            have := lit_some e
            exact absurd ⟨[], u, by rw [this]; rfl⟩ ht.2
          · cases h
            exact ⟨[], rfl, by intro c hc; simp at hc⟩

theorem misc_of_space {w : Str} (h : OptS w) : XMisc XmlName PIText w := by
  induction w with
  | nil => exact .nil
  | cons c t ih => exact .space c (h c List.mem_cons_self) (ih (fun d hd => h d (List.mem_cons_of_mem _ hd)))

theorem version_sound {s r : Str} (h : versionInfo s = .ok r) : ∃ v, s = v ++ r ∧ XPseudo "version".toList XVersion v := by
  obtain ⟨w, u, e, rfl, hw⟩ := parseS_sound s
  unfold versionInfo at h
  rw [e] at h
  dsimp only at h
  split at h
  · cases h
  · rename_i hne
    split at h
    · cases h
    · rename_i r1 e1
      have := need_ok e1
      subst this
      split at h
      · cases h
      · rename_i r2 e2
        obtain ⟨w1, w2, rfl, hw1, hw2⟩ := eq_sound e2
        split at h
        · cases h
        · rename_i q r3 e3
          obtain ⟨rfl, hq⟩ := quote_sound e3
          split at h
          · cases h
          · rename_i r4 e4
            have := need_ok e4
            subst this
            split at h
            · cases h
            · rename_i hd
              have hs := span_sound isDec r4
              have hc := closeQuote_sound h
              refine ⟨w ++ "version".toList ++ (w1 ++ '=' :: w2) ++ q :: ('1' :: '.' :: (span isDec r4).1) ++ [q], ?_,
                w, _, q, _, rfl, ⟨hne, hw⟩, ⟨w1, w2, rfl, hw1, hw2⟩, hq, (span isDec r4).1, rfl, hd,
                fun c h => (isDec_iff c).1 (hs.2.1 c h)⟩
              conv => lhs; rw [hs.1, hc]
              simp

theorem encStart_iff (c : Char) : isEncStart c = true ↔ XLetter c := by
  simp only [isEncStart, XLetter, Bool.or_eq_true, Bool.and_eq_true, decide_eq_true_eq, le_iff]
  exact Iff.rfl

theorem encChar_letter (c : Char) (h : isEncChar c = true) : XLetter c ∨ DecDigit c ∨ c = '.' ∨ c = '_' ∨ c = '-' := by
  simp only [isEncChar, Bool.or_eq_true, beq_iff_eq] at h
  rcases h with (((h | h) | h) | h) | h
  · exact .inr (.inr (.inr (.inr h)))
  · exact .inr (.inr (.inl h))
  · exact .inr (.inl ((isDec_iff c).1 h))
  · exact .inl ((encStart_iff c).1 h)
  · exact .inr (.inr (.inr (.inl h)))

theorem encoding_sound {s r : Str} (h : encodingDecl s = .ok r) :
    ∃ e q v, s = e ++ q :: v ++ q :: r ∧ XEq e ∧ Quote q ∧ XEncName v := by
  unfold encodingDecl at h
  split at h
  · cases h
  · rename_i r1 e1
    obtain ⟨w1, w2, rfl, hw1, hw2⟩ := eq_sound e1
    split at h
    · cases h
    · rename_i q r2 e2
      obtain ⟨rfl, hq⟩ := quote_sound e2
      split at h
      · cases h
      · rename_i c t
        split at h
        · rename_i hc
          have hs := span_sound isEncChar t
          have hc' := closeQuote_sound h
          refine ⟨_, q, c :: (span isEncChar t).1, ?_, ⟨w1, w2, rfl, hw1, hw2⟩, hq, c, _, rfl, (encStart_iff c).1 hc,
            fun d hd => encChar_letter d (hs.2.1 d hd)⟩
          conv => lhs; rw [hs.1, hc']
          simp
        · cases h

theorem sd_sound {s r : Str} (h : sdDecl s = .ok r) :
    ∃ e q v, s = e ++ q :: v ++ q :: r ∧ XEq e ∧ Quote q ∧ (v = "yes".toList ∨ v = "no".toList) := by
  unfold sdDecl at h
  split at h
  · cases h
  · rename_i r1 e1
    obtain ⟨w1, w2, rfl, hw1, hw2⟩ := eq_sound e1
    split at h
    · cases h
    · rename_i q r2 e2
      obtain ⟨rfl, hq⟩ := quote_sound e2
      split at h
      · cases h
      · rename_i r3 e3
        have aux : ∀ m : Str, m = "yes".toList ∨ m = "no".toList → need m r2 = .ok r3 →
            ∃ e q' v, w1 ++ '=' :: w2 ++ q :: r2 = e ++ q' :: v ++ q' :: r ∧ XEq e ∧ Quote q' ∧
              (v = "yes".toList ∨ v = "no".toList) := by
          intro m hm hn
          rw [need_ok hn, closeQuote_sound h]
          exact ⟨_, q, m, by simp, ⟨w1, w2, rfl, hw1, hw2⟩, hq, hm⟩
        refine aux _ ?_ e3
        split
        · exact .inl rfl
        · exact .inr rfl

theorem xmlDecl_sound {s r : Str} (h : xmlDecl s = .ok r) : ∃ d, "<?xml".toList ++ s = d ++ r ∧ XDecl d := by
  unfold xmlDecl at h
  split at h
  · cases h
  · rename_i r1 e1
    obtain ⟨v, rfl, hv⟩ := version_sound e1
    have oS : OptS [] := by intro c hc; simp at hc
    -- the optional parts
    have key : ∀ r', (if (parseS r1).1 = [] then Except.ok r1
        else match lit ['e', 'n', 'c', 'o', 'd', 'i', 'n', 'g'] (parseS r1).2 with
          | some r1 => match encodingDecl r1 with
            | .error e => .error e
            | .ok r2 =>
              if (parseS r2).1 = [] then .ok r2
              else match lit ['s', 't', 'a', 'n', 'd', 'a', 'l', 'o', 'n', 'e'] (parseS r2).2 with
                | some r3 => sdDecl r3
                | none => .ok (parseS r2).2
          | none => match lit ['s', 't', 'a', 'n', 'd', 'a', 'l', 'o', 'n', 'e'] (parseS r1).2 with
            | some r1 => sdDecl r1
            | none => .ok (parseS r1).2) = (Except.ok r' : Except Err Str) →
        ∃ enc sd w, r1 = enc ++ sd ++ w ++ r' ∧ (enc = [] ∨ XPseudo "encoding".toList XEncName enc) ∧
          (sd = [] ∨ XPseudo "standalone".toList (fun v => v = "yes".toList ∨ v = "no".toList) sd) ∧ OptS w := by
      clear h
      intro r' h
      obtain ⟨w, u, e, rfl, hw⟩ := parseS_sound r1
      rw [e] at h
      dsimp only at h
      split at h
      · rename_i hne
        subst hne
        cases h
        exact ⟨[], [], [], by simp, .inl rfl, .inl rfl, oS⟩
      · rename_i hne
        split at h
        · rename_i u1 e2
          have := lit_some e2
          subst this
          split at h
          · cases h
          · rename_i r2 e3
            obtain ⟨e', q, x, rfl, he', hq, hx⟩ := encoding_sound e3
            have henc : XPseudo "encoding".toList XEncName (w ++ "encoding".toList ++ e' ++ q :: x ++ [q]) :=
              ⟨w, e', q, x, rfl, ⟨hne, hw⟩, he', hq, hx⟩
            obtain ⟨w', u', e4, rfl, hw'⟩ := parseS_sound r2
            rw [e4] at h
            dsimp only at h
            split at h
            · rename_i hne'
              subst hne'
              cases h
              exact ⟨_, [], [], by simp, .inr henc, .inl rfl, oS⟩
            · rename_i hne'
              split at h
              · rename_i u2 e5
                have := lit_some e5
                subst this
                obtain ⟨e'', q', y, rfl, he'', hq', hy⟩ := sd_sound h
                exact ⟨_, w' ++ "standalone".toList ++ e'' ++ q' :: y ++ [q'], [], by simp, .inr henc,
                  .inr ⟨w', e'', q', y, rfl, ⟨hne', hw'⟩, he'', hq', hy⟩, oS⟩
              · cases h
                exact ⟨_, [], w', by simp, .inr henc, .inl rfl, hw'⟩
        · split at h
          · rename_i u2 e5
            have := lit_some e5
            subst this
            obtain ⟨e'', q', y, rfl, he'', hq', hy⟩ := sd_sound h
            exact ⟨[], w ++ "standalone".toList ++ e'' ++ q' :: y ++ [q'], [], by simp, .inl rfl,
              .inr ⟨w, e'', q', y, rfl, ⟨hne, hw⟩, he'', hq', hy⟩, oS⟩
          · cases h
            exact ⟨[], [], w, by simp, .inl rfl, .inl rfl, hw⟩
    dsimp only at h
    split at h
    · cases h
    · rename_i r' e'
      obtain ⟨enc, sd, w, rfl, h1, h2, h3⟩ := key r' e'
      obtain ⟨w', u', e4, rfl, hw'⟩ := parseS_sound r'
      rw [e4] at h
      have := need_ok h
      dsimp only at this
      subst this
      refine ⟨"<?xml".toList ++ v ++ enc ++ sd ++ (w ++ w') ++ "?>".toList, by simp, v, enc, sd, w ++ w', rfl, hv, h1, h2, ?_⟩
      intro c hc
      rcases List.mem_append.1 hc with h | h
      · exact h3 c h
      · exact hw' c h

theorem lineEnds_allChars : (s : Str) → AllChars s → AllChars (lineEnds s)
  | [], _ => allChars_nil
  | [c], h => by
    by_cases hc : c = '\r'
    · subst hc
      exact lit_chars _ (by decide +kernel)
    · rw [lineEnds_cons _ _ hc]
      exact allChars_cons.2 ⟨(allChars_cons.1 h).1, allChars_nil⟩
  | c :: d :: t, h => by
    by_cases hc : c = '\r'
    · subst hc
      rw [lineEnds_cr]
      have h := (allChars_cons.1 h).2
      refine allChars_cons.2 ⟨by decide +kernel, ?_⟩
      by_cases hd : d = '\n'
      · subst hd
        exact lineEnds_allChars t (allChars_cons.1 h).2
      · rw [dropLF, if_neg hd]
        exact lineEnds_allChars (d :: t) h
    · rw [lineEnds_cons _ _ hc]
      exact allChars_cons.2 ⟨(allChars_cons.1 h).1, lineEnds_allChars (d :: t) (allChars_cons.1 h).2⟩

end PX

/-- **What is accepted is well-formed**, if its characters are legal and it has no comments and no processing
instructions: the tree read is what the recommendation says is to be reported. -/
theorem py_xml_sound_partial (n : Nat) (src : Str) (t : PyXml.Node) (hc : ∀ c ∈ src, XmlChar c)
    (hm : ¬ Occurs ['<', '!', '-'] (lineEnds src))
    (hp : ∀ a b, lineEnds src = a ++ '<' :: '?' :: b → (a = [] ∨ a = ['\uFEFF']) ∧ "xml".toList <+: b)
    (h : PyXml.read n src = some (.ok t)) : ∃ root, flat t = [root] ∧ XWellFormed src root := by
  rw [PyXml.read] at h
  split at h
  · cases h
  · -- the text after the byte order mark
    obtain ⟨s, hs, he, hbom⟩ : ∃ s, (src = s ∨ src = '\uFEFF' :: s) ∧ entity src = lineEnds s ∧
        (lineEnds src = lineEnds s ∨ lineEnds src = '\uFEFF' :: lineEnds s) := by
      unfold entity
      rw [(eol_lineEnds src).1]
      split
      · rename_i c u e
        split
        · rename_i hcc
          subst hcc
          cases src with
          | nil => simp [lineEnds] at e
          | cons d v =>
            by_cases hd : d = '\r'
            · subst hd
              rw [lineEnds_cr] at e
              exact absurd (List.cons.inj e).1 (by decide)
            · rw [lineEnds_cons _ _ hd] at e
              obtain ⟨rfl, rfl⟩ := List.cons.inj e
              exact ⟨v, .inr rfl, rfl, .inr (lineEnds_cons _ _ hd)⟩
        · exact ⟨src, .inl rfl, e.symm, .inl rfl⟩
      · rename_i e
        exact ⟨src, .inl rfl, e.symm, .inl rfl⟩
    rw [he] at h
    have hcs : AllChars (lineEnds s) := by
      apply lineEnds_allChars
      rcases hs with rfl | rfl
      · exact hc
      · exact fun c h => hc c (List.mem_cons_of_mem _ h)
    have hm' : ¬ Occurs ['<', '!', '-'] (lineEnds s) := by
      rintro ⟨a, b, e⟩
      rcases hbom with h | h
      · exact hm ⟨a, b, by rw [h, e]⟩
      · exact hm ⟨'\uFEFF' :: a, b, by rw [h, ← e]; rfl⟩
    have hp' : ∀ a b, lineEnds s = a ++ '<' :: '?' :: b → a = [] ∧ "xml".toList <+: b := by
      intro a b e
      rcases hbom with h | h
      · obtain ⟨h1, h2⟩ := hp a b (by rw [h, e])
        refine ⟨?_, h2⟩
        rcases h1 with h1 | h1
        · exact h1
        · subst h1
          exfalso
          -- a mark that was not dropped
          rw [e] at h
          have : entity src = '<' :: '?' :: b := by
            unfold entity
            rw [(eol_lineEnds src).1, h]
            simp
          rw [he, e] at this
          exact absurd (List.cons.inj this).1 (by decide)
      · obtain ⟨h1, h2⟩ := hp ('\uFEFF' :: a) b (by rw [h, e]; rfl)
        rcases h1 with h1 | h1
        · cases h1
        · exact ⟨(List.cons.inj h1).2, h2⟩
    obtain ⟨x, hx⟩ : ∃ x, lineEnds s = x := ⟨_, rfl⟩
    rw [hx] at h hcs hm' hp'
    rw [document] at h
    split at h
    · cases h
    · rename_i r e1
      -- the declaration
      obtain ⟨d, rfl, hd, htidy⟩ : ∃ d, x = d ++ r ∧ (d = [] ∨ XDecl d) ∧ Tidy r := by
        unfold decl at e1
        split at e1
        · rename_i u e2
          have := lit_some e2
          subst this
          obtain ⟨d, e3, hd⟩ := xmlDecl_sound e1
          have e3' : ['<', '?', 'x', 'm', 'l'] ++ u = d ++ r := e3
          refine ⟨d, e3', .inr hd, ?_, ?_⟩
          · rintro ⟨a, b, e⟩; exact hm' ⟨d ++ a, b, by rw [e3', ← e]; simp⟩
          · rintro ⟨a, b, e⟩
            have h1 := (hp' (d ++ a) b (by rw [e3', ← e]; simp)).1
            obtain ⟨v, enc, sd, w, e5, _⟩ := hd
            rw [e5] at h1
            simp at h1
        · rename_i e2
          cases e1
          refine ⟨[], rfl, .inl rfl, hm', ?_⟩
          rintro ⟨a, b, e⟩
          obtain ⟨rfl, y, rfl⟩ := hp' a b (by rw [← e]; simp)
          rw [← e] at e2
          simp [lit] at e2
      rw [allChars_app] at hcs
      split at h
      · cases h
      · cases h
      · rename_i r1 e2
        obtain ⟨w, rfl, hw⟩ := misc_sound _ _ _ htidy e2
        split at h
        · cases h
        · split at h
          · cases h
          · cases h
          · rename_i root r2 e3
            obtain ⟨y, rt, rfl, hf, hy⟩ := (both_sound n).1 _ _ _ (allChars_app.1 hcs.2).2 (tidy_suffix htidy) e3
            split at h
            · cases h
            · cases h
            · rename_i r3 e4
              obtain ⟨w', rfl, hw'⟩ := misc_sound _ _ _ (tidy_suffix (tidy_suffix htidy)) e4
              split at h
              · rename_i hr3
                subst hr3
                cases h
                refine ⟨rt, hf, ?_⟩
                exact ⟨s, hs, d, w, y, w', by rw [hx]; simp, hd.imp (fun h => ⟨h, trivial⟩) id, misc_of_space hw, hy,
                  misc_of_space hw'⟩
              · cases h

end Verif.Props
