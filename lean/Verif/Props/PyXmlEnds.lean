import Verif.Props.PyXmlSound

/-!
# When the parser ends
-/

namespace Verif.Props

open Verif Verif.Names Verif.Spec Verif.PyXml
open PX

namespace PX

/-- What is left after reading something. -/
def Less (r s : Str) : Prop := ∃ c a, s = c :: (a ++ r)

theorem Less.suffix {r s : Str} (h : Less r s) : r <:+ s := by
  obtain ⟨c, a, rfl⟩ := h
  exact ⟨c :: a, rfl⟩

theorem Less.len {r s : Str} (h : Less r s) : r.length < s.length := by
  obtain ⟨c, a, rfl⟩ := h
  simp
  omega

theorem less_of {r s t : Str} (h : Less r s) (h' : s <:+ t) : Less r t := by
  obtain ⟨c, a, rfl⟩ := h
  obtain ⟨b, rfl⟩ := h'
  cases b with
  | nil => exact ⟨c, a, rfl⟩
  | cons d b => exact ⟨d, b ++ c :: a, by simp⟩

theorem of_less {r s t : Str} (h : r <:+ s) (h' : Less s t) : Less r t := by
  obtain ⟨b, rfl⟩ := h
  obtain ⟨c, a, rfl⟩ := h'
  exact ⟨c, a ++ b, by simp⟩

theorem less_cons (c : Char) (s : Str) : Less s (c :: s) := ⟨c, [], rfl⟩

theorem less_app {a r : Str} (h : a ≠ []) : Less r (a ++ r) := by
  cases a with
  | nil => exact absurd rfl h
  | cons c a => exact ⟨c, a, rfl⟩

theorem need_less {m s r : Str} (hm : m ≠ []) (h : need m s = .ok r) : Less r s := by
  rw [need_ok h]
  exact less_app hm

theorem parseS_suffix (s : Str) : (parseS s).2 <:+ s := ⟨(span isS s).1, (span_sound isS s).1.symm⟩

theorem needName_less {s n r : Str} (h : needName s = .ok (n, r)) : Less r s := by
  obtain ⟨rfl, c, t, rfl, _⟩ := needName_sound h
  exact less_app (by simp)

theorem eq_less {s r : Str} (h : PyXml.eq s = .ok r) : Less r s := by
  obtain ⟨w, w', rfl, _⟩ := eq_sound h
  exact less_app (by simp)

theorem quote_less {s r : Str} {q : Char} (h : PyXml.quote s = .ok (q, r)) : Less r s := by
  obtain ⟨rfl, _⟩ := quote_sound h
  exact less_cons _ _

theorem reference_less {s r : Str} {c : Char} (h : reference s = .ok (c, r)) : Less r s := by
  obtain ⟨x, rfl, _⟩ := reference_sound h
  have : x ++ ';' :: r = (x ++ [';']) ++ r := by simp
  rw [this]
  exact less_app (by simp)

theorem attLoop_less {q : Char} : (n : Nat) → (s v r : Str) → attLoop q n s = some (.ok (v, r)) → Less r s
  | 0, _, _, _, h => by simp [attLoop] at h
  | n + 1, [], _, _, h => by simp [attLoop, bad] at h
  | n + 1, c :: t, v, r, h => by
    rw [attLoop] at h
    split at h
    · cases h; exact less_cons _ _
    · split at h
      · split at h
        · cases h
        · rename_i d u e
          obtain ⟨v', hx, rfl⟩ := pre_ok h
          exact of_less (less_of (attLoop_less n _ _ _ hx) (reference_less e).suffix).suffix (less_cons _ _)
      · split at h
        · obtain ⟨v', hx, rfl⟩ := pre_ok h
          exact of_less (attLoop_less n _ _ _ hx).suffix (less_cons _ _)
        · split at h
          · cases h
          · obtain ⟨v', hx, rfl⟩ := pre_ok h
            exact of_less (attLoop_less n _ _ _ hx).suffix (less_cons _ _)

theorem pre_none {c : Char} {x} (h : pre c x = none) : x = none := by
  unfold pre at h
  split at h
  · cases h
  · exact h

theorem attLoop_ends {q : Char} : (n : Nat) → (s : Str) → s.length < n → attLoop q n s ≠ none
  | 0, _, h => by omega
  | n + 1, [], _ => by simp [attLoop]
  | n + 1, c :: t, h => by
    intro hn
    rw [attLoop] at hn
    simp at h
    split at hn
    · cases hn
    · split at hn
      · split at hn
        · cases hn
        · rename_i d u e
          have := (reference_less e).len
          exact attLoop_ends n u (by omega) (pre_none hn)
      · split at hn
        · exact attLoop_ends n t h (pre_none hn)
        · split at hn
          · cases hn
          · exact attLoop_ends n t h (pre_none hn)

theorem attSpec_less {m : Nat} {s n v r : Str} (h : attSpec m s = some (.ok (n, v, r))) : Less r s := by
  unfold attSpec at h
  split at h
  · cases h
  · rename_i name r1 e1
    split at h
    · cases h
    · rename_i r2 e2
      split at h
      · cases h
      · rename_i q r3 e3
        split at h
        · cases h
        · cases h
        · rename_i v' r4 e4
          cases h
          exact of_less (attLoop_less _ _ _ _ e4).suffix (of_less (quote_less e3).suffix
            (of_less (eq_less e2).suffix (needName_less e1)))

theorem attSpec_ends (n : Nat) (s : Str) (h : s.length < n) : attSpec n s ≠ none := by
  intro hn
  unfold attSpec at hn
  split at hn
  · cases hn
  · rename_i name r1 e1
    split at hn
    · cases hn
    · rename_i r2 e2
      split at hn
      · cases hn
      · rename_i q r3 e3
        have := (of_less (quote_less e3).suffix (of_less (eq_less e2).suffix (needName_less e1))).len
        split at hn
        · rename_i e
          exact attLoop_ends n r3 (by omega) e
        · cases hn
        · cases hn

theorem stagLoop_less : (n : Nat) → (acc : List (Str × Str)) → (s : Str) → (as : List (Str × Str)) → (b : Bool) → (r : Str) →
    stagLoop n acc s = some (.ok (as, b, r)) → Less r s
  | 0, _, _, _, _, _, h => by simp [stagLoop] at h
  | n + 1, acc, s, as, b, r, h => by
    have hs := parseS_suffix s
    rw [stagLoop] at h
    split at h
    · rename_i t e
      cases h
      rw [e] at hs
      exact less_of (less_cons _ _) hs
    · rename_i t e
      split at h
      · cases h
      · rename_i r' e'
        cases h
        rw [e] at hs
        exact less_of (of_less (need_less (by simp) e').suffix (less_cons _ _)) hs
    · split at h
      · cases h
      · split at h
        · cases h
        · cases h
        · rename_i name v r' e'
          split at h
          · cases h
          · exact less_of (of_less (stagLoop_less n _ _ _ _ _ h).suffix (attSpec_less e')) hs

theorem stagLoop_ends : (n : Nat) → (acc : List (Str × Str)) → (s : Str) → s.length + 1 < n → stagLoop n acc s ≠ none
  | 0, _, _, h => by omega
  | n + 1, acc, s, h => by
    intro hn
    have hs := (parseS_suffix s).length_le
    rw [stagLoop] at hn
    split at hn
    · cases hn
    · split at hn
      · cases hn
      · cases hn
    · split at hn
      · cases hn
      · split at hn
        · rename_i e
          exact attSpec_ends n _ (by omega) e
        · cases hn
        · rename_i name v r' e'
          have := (attSpec_less e').len
          split at hn
          · cases hn
          · exact stagLoop_ends n _ r' (by omega) hn

theorem stag_less {m : Nat} {s n r : Str} {as : List (Str × Str)} {b : Bool} (h : stag m s = some (.ok (n, as, b, r))) :
    Less r s := by
  unfold stag at h
  split at h
  · cases h
  · rename_i r1 e1
    split at h
    · cases h
    · rename_i name r2 e2
      split at h
      · cases h
      · cases h
      · rename_i as' b' r3 e3
        cases h
        exact of_less (stagLoop_less _ _ _ _ _ _ e3).suffix (of_less (needName_less e2).suffix (need_less (by simp) e1))

theorem stag_ends (n : Nat) (s : Str) (h : s.length ≤ n) : stag n s ≠ none := by
  intro hn
  unfold stag at hn
  split at hn
  · cases hn
  · rename_i r1 e1
    split at hn
    · cases hn
    · rename_i name r2 e2
      have h1 := (need_less (by simp) e1).len
      have h2 := (needName_less e2).len
      split at hn
      · rename_i e
        exact stagLoop_ends n _ r2 (by omega) e
      · cases hn
      · cases hn

theorem etag_less {s n r : Str} (h : etag s = .ok (n, r)) : Less r s := by
  obtain ⟨w, rfl, _⟩ := etag_sound h
  have : '<' :: '/' :: n ++ w ++ '>' :: r = ('<' :: '/' :: n ++ w ++ ['>']) ++ r := by simp
  rw [this]
  exact less_app (by simp)

theorem comment_suffix : (s : Str) → (k : Nat) → (r : Str) → comment k s = .ok r → r <:+ s
  | [], _, r, h => by simp [comment] at h; subst h; exact List.suffix_refl _
  | c :: t, k, r, h => by
    rw [comment] at h
    have st : ∀ k', comment k' t = .ok r → r <:+ c :: t := fun k' h' =>
      (comment_suffix t k' r h').trans (less_cons c t).suffix
    split at h
    · split at h
      · cases h
      · exact st _ h
    · split at h
      · split at h
        · cases h; exact (less_cons _ _).suffix
        · exact st _ h
      · split at h
        · split at h
          · exact st _ h
          · exact st _ h
        · split at h
          · cases h
          · exact st _ h

theorem piData_suffix (s : Str) : ∀ r, piData s = .ok r → r <:+ s := by
  induction s using piData.induct with
  | case1 => intro r h; simp [piData] at h; subst h; exact List.suffix_refl _
  | case2 t => intro r h; simp [piData] at h; subst h; exact ⟨['?', '>'], rfl⟩
  | case3 => intro r h; simp [piData] at h
  | case4 c t hc ih =>
    intro r h
    rw [piData] at h
    · exact (ih r h).trans ⟨['?', c], rfl⟩
    · exact hc
  | case5 c t h1 h2 h3 ih =>
    intro r h
    rw [piData] at h
    · exact (ih r h).trans (less_cons c t).suffix
    · exact h1
    · exact h2
    · exact h3

theorem parseName_suffix {s n r : Str} (h : parseName s = some (n, r)) : r <:+ s := by
  have : needName s = .ok (n, r) := by rw [needName, h]
  exact (needName_less this).suffix

theorem parsePI_suffix {s r : Str} (h : parsePI s = .ok r) : r <:+ s := by
  unfold parsePI at h
  split at h
  · cases h
  · rename_i name u e
    have hu := parseName_suffix e
    split at h
    · cases h
    · split at h
      · exact (need_less (by simp) h).suffix.trans hu
      · exact ((piData_suffix _ _ h).trans (parseS_suffix u)).trans hu

theorem cdata_suffix (s : Str) : (cdata s).2 <:+ s := by
  induction s with
  | nil => exact List.suffix_refl _
  | cons c t ih =>
    rw [cdata]
    split
    · exact List.suffix_refl _
    · exact ih.trans (less_cons c t).suffix

theorem charData_suffix (s : Str) : (charData s).2 <:+ s := by
  induction s with
  | nil => exact List.suffix_refl _
  | cons c t ih =>
    rw [charData]
    split
    · exact List.suffix_refl _
    · split
      · exact List.suffix_refl _
      · exact ih.trans (less_cons c t).suffix

theorem charData_less (c : Char) (t : Str) (hc : c ≠ '<') (hc' : c ≠ '&') (h : ¬ [']', ']', '>'] <+: c :: t) :
    Less (charData (c :: t)).2 (c :: t) := by
  rw [charData_cons c t ⟨hc, hc'⟩ h]
  exact of_less (charData_suffix t) (less_cons c t)

theorem preData_none {d : Str} {x} (h : preData d x = none) : x = none := by
  unfold preData at h
  split at h
  · cases h
  · exact h

theorem preElem_none {d : PyXml.Node} {x} (h : preElem d x = none) : x = none := by
  unfold preElem at h
  split at h
  · cases h
  · exact h

theorem markup_suffix (t : Str) : (∀ r, markup t = .comment r → r <:+ t) ∧ (∀ r, markup t = .cdata r → r <:+ t) ∧
    (∀ r, markup t = .pi r → r <:+ t) := by
  unfold markup
  split
  · split
    · rename_i r
      refine ⟨?_, ?_, ?_⟩ <;> intro r' h <;> cases h
      exact ⟨['!', '-'], rfl⟩
    · rename_i r
      refine ⟨?_, ?_, ?_⟩ <;> intro r' h <;> cases h
      exact ⟨['!', '['], rfl⟩
    · refine ⟨?_, ?_, ?_⟩ <;> intro r' h <;> cases h
  · refine ⟨?_, ?_, ?_⟩ <;> intro r' h <;> cases h
    exact ⟨['?'], rfl⟩
  · refine ⟨?_, ?_, ?_⟩ <;> intro r' h <;> cases h
  · refine ⟨?_, ?_, ?_⟩ <;> intro r' h <;> cases h

theorem both_less : (n : Nat) →
    (∀ (s r : Str) (t : PyXml.Node), element n s = some (.ok (t, r)) → Less r s) ∧
    (∀ (s r : Str) (ks : List PyXml.Node), content n s = some (.ok (ks, r)) → r <:+ s)
  | 0 => ⟨fun _ _ _ h => by simp [element] at h, fun _ _ _ h => by simp [content] at h⟩
  | n + 1 => by
    obtain ⟨ihe, ihc⟩ := both_less n
    constructor
    · intro s r t h
      rw [element] at h
      split at h
      · cases h
      · cases h
      · rename_i name as r1 e1
        cases h
        exact stag_less e1
      · rename_i name as r1 e1
        split at h
        · cases h
        · cases h
        · rename_i ks r2 e2
          split at h
          · cases h
          · rename_i name' r3 e3
            split at h
            · cases h
              exact of_less ((etag_less e3).suffix.trans (ihc _ _ _ e2)) (stag_less e1)
            · cases h
    · intro s r ks h
      cases s with
      | nil => simp [content] at h; rw [h.2]; exact List.suffix_refl _
      | cons c t =>
        have st : ∀ u, u <:+ t → u <:+ c :: t := fun u hu => hu.trans (less_cons c t).suffix
        obtain ⟨m1, m2, m3⟩ := markup_suffix t
        rw [content] at h
        split at h
        · split at h
          · rename_i t1 em
            split at h
            · cases h
            · rename_i r1 e1
              split at h
              · cases h
              · rename_i r2 e2
                exact st _ ((((ihc _ _ _ h).trans (comment_suffix _ _ _ e2)).trans (need_less (by simp) e1).suffix).trans (m1 _ em))
          · rename_i t1 em
            split at h
            · cases h
            · rename_i r1 e1
              split at h
              · cases h
              · rename_i r2 e2
                obtain ⟨ks', e3, rfl⟩ := preData_ok h
                exact st _ (((((ihc _ _ _ e3).trans (need_less (by simp) e2).suffix).trans (cdata_suffix r1)).trans
                  (need_less (by simp) e1).suffix).trans (m2 _ em))
          · cases h
          · rename_i t1 em
            split at h
            · cases h
            · rename_i r1 e1
              exact st _ (((ihc _ _ _ h).trans (parsePI_suffix e1)).trans (m3 _ em))
          · cases h
            exact List.suffix_refl _
          · split at h
            · cases h
            · cases h
            · rename_i e r1 e1
              obtain ⟨ks', e3, rfl⟩ := preElem_ok h
              exact (ihc _ _ _ e3).trans (ihe _ _ _ e1).suffix
        · split at h
          · split at h
            · cases h
            · rename_i d r1 e1
              obtain ⟨ks', e3, rfl⟩ := preData_ok h
              exact st _ ((ihc _ _ _ e3).trans (reference_less e1).suffix)
          · obtain ⟨ks', e3, rfl⟩ := preData_ok h
            exact (ihc _ _ _ e3).trans (charData_suffix _)

theorem noEnd_suffix {r s : Str} (h : ¬ Occurs [']', ']', '>'] s) (hr : r <:+ s) : ¬ Occurs [']', ']', '>'] r := by
  obtain ⟨a, rfl⟩ := hr
  rintro ⟨u, v, e⟩
  exact h ⟨a ++ u, v, by rw [← e]; simp⟩

theorem both_ends : (n : Nat) →
    (∀ s : Str, ¬ Occurs [']', ']', '>'] s → 2 * s.length + 1 ≤ n → element n s ≠ none) ∧
    (∀ s : Str, ¬ Occurs [']', ']', '>'] s → 2 * s.length + 2 ≤ n → content n s ≠ none)
  | 0 => ⟨fun _ _ h => by omega, fun _ _ h => by omega⟩
  | n + 1 => by
    obtain ⟨ihe, ihc⟩ := both_ends n
    constructor
    · intro s ho hl h
      rw [element] at h
      split at h
      · rename_i e
        exact stag_ends n s (by omega) e
      · cases h
      · cases h
      · rename_i name as r1 e1
        have h1 := stag_less e1
        have h2 := h1.len
        split at h
        · rename_i e
          exact ihc r1 (noEnd_suffix ho h1.suffix) (by omega) e
        · cases h
        · split at h
          · cases h
          · split at h
            · cases h
            · cases h
    · intro s ho hl h
      cases s with
      | nil => simp [content] at h
      | cons c t =>
        simp at hl
        have go : ∀ u, Less u (c :: t) → content n u ≠ none := fun u hu =>
          ihc u (noEnd_suffix ho hu.suffix) (by have := hu.len; simp at this; omega)
        have st : ∀ u, u <:+ t → Less u (c :: t) := fun u hu => of_less hu (less_cons c t)
        obtain ⟨m1, m2, m3⟩ := markup_suffix t
        rw [content] at h
        split at h
        · split at h
          · rename_i t1 em
            split at h
            · cases h
            · rename_i r1 e1
              split at h
              · cases h
              · rename_i r2 e2
                exact go _ (st _ (((comment_suffix _ _ _ e2).trans (need_less (by simp) e1).suffix).trans (m1 _ em))) h
          · rename_i t1 em
            split at h
            · cases h
            · rename_i r1 e1
              split at h
              · cases h
              · rename_i r2 e2
                exact go _ (st _ ((((need_less (by simp) e2).suffix.trans (cdata_suffix r1)).trans
                  (need_less (by simp) e1).suffix).trans (m2 _ em))) (preData_none h)
          · cases h
          · rename_i t1 em
            split at h
            · cases h
            · rename_i r1 e1
              exact go _ (st _ ((parsePI_suffix e1).trans (m3 _ em))) h
          · cases h
          · split at h
            · rename_i e
              exact ihe (c :: t) ho (by simp; omega) e
            · cases h
            · rename_i e r1 e1
              exact go _ ((both_less n).1 _ _ _ e1) (preElem_none h)
        · rename_i hlt
          split at h
          · split at h
            · cases h
            · rename_i d r1 e1
              exact go _ (st _ (reference_less e1).suffix) (preData_none h)
          · rename_i hamp
            refine go _ (charData_less c t hlt hamp ?_) (preData_none h)
            rintro ⟨v, e⟩
            exact ho ⟨[], v, e⟩

theorem misc_suffix : (n : Nat) → (s r : Str) → misc n s = some (.ok r) → r <:+ s
  | 0, _, _, h => by simp [misc] at h
  | n + 1, s, r, h => by
    rw [misc.eq_def] at h
    dsimp only at h
    split at h
    · cases h; exact List.suffix_refl _
    · rename_i c t
      split at h
      · exact (misc_suffix n t r h).trans (less_cons c t).suffix
      · split at h
        · rename_i u e
          have hu : u <:+ c :: t := by rw [lit_some e]; exact ⟨_, rfl⟩
          split at h
          · cases h
          · rename_i r1 e1
            exact ((misc_suffix n _ r h).trans (comment_suffix _ _ _ e1)).trans hu
        · split at h
          · rename_i u e
            have hu : u <:+ c :: t := by rw [lit_some e]; exact ⟨_, rfl⟩
            split at h
            · cases h
            · rename_i r1 e1
              exact ((misc_suffix n _ r h).trans (parsePI_suffix e1)).trans hu
          · cases h; exact List.suffix_refl _

theorem misc_ends : (n : Nat) → (s : Str) → s.length < n → misc n s ≠ none
  | 0, _, h => by omega
  | n + 1, s, hl => by
    intro h
    rw [misc.eq_def] at h
    dsimp only at h
    split at h
    · cases h
    · rename_i c t
      simp at hl
      split at h
      · exact misc_ends n t (by omega) h
      · split at h
        · rename_i u e
          have hu := congrArg List.length (lit_some e)
          simp at hu
          split at h
          · cases h
          · rename_i r1 e1
            have := (comment_suffix _ _ _ e1).length_le
            exact misc_ends n _ (by omega) h
        · split at h
          · rename_i u e
            have hu := congrArg List.length (lit_some e)
            simp at hu
            split at h
            · cases h
            · rename_i r1 e1
              have := (parsePI_suffix e1).length_le
              exact misc_ends n _ (by omega) h
          · cases h

theorem xmlDecl_suffix {s r : Str} (h : decl s = .ok r) : r <:+ s := by
  unfold decl at h
  split at h
  · rename_i u e
    obtain ⟨d, e1, _⟩ := xmlDecl_sound h
    rw [lit_some e]
    exact ⟨d, e1.symm⟩
  · cases h; exact List.suffix_refl _

theorem eol_len (s : Str) : ∀ b, (eol b s).length ≤ s.length := by
  induction s with
  | nil => intro b; simp [eol]
  | cons c t ih =>
    intro b
    rw [eol]
    have h1 := ih true
    have h2 := ih false
    split
    · simp; omega
    · split
      · split
        · simp; omega
        · simp; omega
      · simp; omega

theorem entity_noEnd {src : Str} (h : ¬ Occurs [']', ']', '>'] (lineEnds src)) :
    ¬ Occurs [']', ']', '>'] (entity src) ∧ (entity src).length ≤ src.length := by
  unfold entity
  rw [(eol_lineEnds src).1]
  have hl : (lineEnds src).length ≤ src.length := by rw [← (eol_lineEnds src).1]; exact eol_len src false
  split
  · rename_i c t e
    rw [e] at h hl
    split
    · exact ⟨noEnd_suffix h (less_cons c t).suffix, by simp at hl; omega⟩
    · exact ⟨h, hl⟩
  · exact ⟨by rintro ⟨u, v, e⟩; simp at e, by simp⟩

end PX

/-- **The parser ends** on every source in which `]]>` does not occur, whether it is well-formed or not: within
twice as many steps as there are characters. -/
theorem py_xml_ends_partial (src : Str) (h : ¬ Occurs "]]>".toList (lineEnds src)) (n : Nat)
    (hn : 2 * src.length + 1 ≤ n) : ∃ x, PyXml.read n src = some x := by
  cases hr : PyXml.read n src with
  | some x => exact ⟨x, rfl⟩
  | none =>
    exfalso
    rw [PyXml.read] at hr
    split at hr
    · cases hr
    · obtain ⟨ho, hl⟩ := entity_noEnd h
      generalize entity src = s at *
      rw [document] at hr
      split at hr
      · cases hr
      · rename_i r e1
        have h1 := xmlDecl_suffix e1
        have h1' := h1.length_le
        split at hr
        · rename_i e
          exact misc_ends n r (by omega) e
        · cases hr
        · rename_i r1 e2
          have h2 := misc_suffix _ _ _ e2
          have h2' := h2.length_le
          split at hr
          · cases hr
          · split at hr
            · rename_i e
              exact (both_ends n).1 r1 (noEnd_suffix ho (h2.trans h1)) (by omega) e
            · cases hr
            · rename_i root r2 e3
              have h3 := ((both_less n).1 _ _ _ e3).len
              split at hr
              · rename_i e
                exact misc_ends n r2 (by omega) e
              · cases hr
              · split at hr
                · cases hr
                · cases hr

end Verif.Props
