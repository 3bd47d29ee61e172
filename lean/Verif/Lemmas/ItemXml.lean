import Verif.Lemmas.Xml
import Verif.Lemmas.XmlUtils
import Verif.Spec.ItemXml

/-! Lemmas for the written items: what escaped texts, attributes and elements read as. -/

set_option linter.unusedVariables false

namespace Verif.Spec

open Verif.Py Verif.XmlUtils Verif.ItemXml

theorem toDigits_strNat (n : Nat) : strNat n = Nat.toDigits 10 n := by
  induction n using Nat.strongRecOn with
  | _ n ih =>
    rw [strNat]
    by_cases h : n < 10
    · rw [if_pos h, Nat.toDigits_of_lt_base h]
      have : ∀ m : Fin 10, digitChar m.val = Nat.digitChar m.val := by decide
      rw [this ⟨n, h⟩]
    · rw [if_neg h, ih (n / 10) (by omega), Nat.toDigits_of_base_le (n := n) (by decide) (by omega)]
      congr 2
      have : ∀ m : Fin 10, digitChar m.val = Nat.digitChar m.val := by decide
      exact this ⟨n % 10, by omega⟩

theorem strInt_intText (n : Int) : strInt n = intText n := by
  simp only [strInt, intText, toDigits_strNat]

theorem join_separated (sep : Char) (l : List Str) : join sep l = separated sep l := by
  fun_induction separated sep l with
  | case1 => rfl
  | case2 => rfl
  | case3 s t ts ih => rw [join, ih]

theorem ref_num (c : Char) (hc : XmlChar c) : Ref ('#' :: strNat c.toNat) c := by
  refine .num _ _ (strNat_ne_nil _) ?_ ?_ hc
  · intro d hd
    have := List.all_eq_true.mp (strNat_all c.toNat) d hd
    simpa [isDigit] using this
  · have := strNat_val c.toNat
    have key : ∀ (ds : Str) (k : Nat), (∀ d ∈ ds, isDigit d = true) →
        ds.foldl (fun n d => 10 * n + (d.toNat - 48)) k = ds.foldl (fun acc c => acc * 10 + hexVal c) k := by
      intro ds
      induction ds with
      | nil => intro k _; rfl
      | cons d ds ih =>
        intro k h
        simp only [List.foldl_cons]
        have h1 : hexVal d = d.toNat - 48 := by
          have := h d (by simp)
          simp only [isDigit, Bool.and_eq_true, decide_eq_true_eq] at this
          unfold hexVal
          rw [if_pos this.2]
        rw [h1, Nat.mul_comm k 10]
        exact ih _ (fun d hd => h d (by simp [hd]))
    unfold decimal
    rw [key _ _ (List.all_eq_true.mp (strNat_all c.toNat))]
    exact this

/-- An escaped character is itself or a reference to itself. -/
theorem xmlChar_reads (c : Char) (hc : XmlChar c) :
    (xmlChar c = [c] ∧ c ≠ '<' ∧ c ≠ '&' ∧ c ≠ '>') ∨ ∃ r, xmlChar c = '&' :: r ++ [';'] ∧ Ref r c := by
  unfold xmlChar
  split
  · rename_i h; subst h; exact .inr ⟨['a', 'm', 'p'], rfl, .amp⟩
  · split
    · rename_i h; subst h; exact .inr ⟨['l', 't'], rfl, .lt⟩
    · split
      · rename_i h; subst h; exact .inr ⟨['g', 't'], rfl, .gt⟩
      · split
        · exact .inr ⟨'#' :: strNat c.toNat, by simp, ref_num c hc⟩
        · exact .inl ⟨rfl, by assumption, by assumption, by assumption⟩

theorem reads_xmlString {s : Str} (h : TextOk s) : Reads (xmlString s) (chars s) := by
  induction s with
  | nil => exact .nil
  | cons c t ih =>
    have ht := ih (fun d hd => h d (by simp [hd]))
    have hc := h c (by simp)
    have e : xmlString (c :: t) = xmlChar c ++ xmlString t := by simp [xmlString]
    rw [e]
    rcases xmlChar_reads c hc.1 with ⟨h1, h2, h3, h4⟩ | ⟨r, h1, h2⟩
    · rw [h1]; exact .chr c hc.1 h2 h3 h4 hc.2 ht
    · rw [h1]
      show Reads _ (.chr c :: chars t)
      simpa using Reads.ref h2 ht

theorem attVal_xmlString {s : Str} (h : AttOk s) : AttVal (xmlString s) s := by
  induction s with
  | nil => exact .nil
  | cons c t ih =>
    have ht := ih (fun d hd => h d (by simp [hd]))
    obtain ⟨h1, h2, h3, h4, h5⟩ := h c (by simp)
    have e : xmlString (c :: t) = xmlChar c ++ xmlString t := by simp [xmlString]
    rw [e]
    rcases xmlChar_reads c h1 with ⟨g1, g2, g3, g4⟩ | ⟨r, g1, g2⟩
    · rw [g1]; exact .chr c h1 g2 g3 h5 h4 h3 h2 ht
    · rw [g1]; simpa using AttVal.ref g2 ht

theorem attVal_raw {s : Str} (h : RawOk s) : AttVal s s := by
  induction s with
  | nil => exact .nil
  | cons c t ih =>
    obtain ⟨h0, h1, h2⟩ := h
    simp only [List.mem_cons, not_or] at h1 h2
    have ht := ih ⟨fun d hd => h0 d (by simp [hd]), h1.2, h2.2⟩
    obtain ⟨k1, k2, k3, k4, k5⟩ := h0 c (by simp)
    exact .chr c k1 (fun e => h1.1 e.symm) (fun e => h2.1 e.symm) k5 k4 k3 k2 ht

/-! ## Attributes -/

/-- A decidable test for an ASCII name. -/
def asciiName : Str → Bool
  | [] => false
  | c :: t => (isLetter c || c = '_') && t.all (fun d => isLetter d || isDigit d || d ∈ ['_', '-', '.', ':'])

theorem asciiName_name {s : Str} (h : asciiName s = true) : XmlName s := by
  cases s with
  | nil => simp [asciiName] at h
  | cons c t =>
    simp only [asciiName, Bool.and_eq_true, Bool.or_eq_true, decide_eq_true_eq, List.all_eq_true] at h
    refine ⟨c, t, rfl, ?_, ?_⟩
    · rcases h.1 with h | h
      · simp only [isLetter, Bool.or_eq_true, Bool.and_eq_true, decide_eq_true_eq] at h
        simp only [XmlNameStart]; omega
      · subst h; simp [XmlNameStart]
    · intro d hd
      rcases h.2 d hd with (h | h) | h
      · left
        simp only [isLetter, Bool.or_eq_true, Bool.and_eq_true, decide_eq_true_eq] at h
        simp only [XmlNameStart]; omega
      · simp only [isDigit, Bool.and_eq_true, decide_eq_true_eq] at h
        simp only [XmlNameChar]; omega
      · simp at h
        rcases h with h | h | h | h <;> subst h <;> simp [XmlNameChar, XmlNameStart]

/-- The text before the value of an attribute: white space, the name, an equals sign and a quote. -/
def headOf (head : Str) (n : Str) : Bool :=
  let w := head.takeWhile (fun c => c = ' ' || c = '\t' || c = '\n')
  !w.isEmpty && asciiName n && decide (head = w ++ n ++ ['=', '"'])

theorem attrs_one {head : Str} {n : String} {v val : Str} (h : headOf head n.toList = true) (hv : AttVal v val) :
    Attrs (head ++ v ++ ['"']) (given [(n, some val)]) := by
  simp only [headOf, Bool.and_eq_true, Bool.not_eq_true', decide_eq_true_eq, List.isEmpty_eq_false_iff] at h
  obtain ⟨⟨h1, h2⟩, h3⟩ := h
  generalize hw : head.takeWhile (fun c => c = ' ' || c = '\t' || c = '\n') = w at *
  have hs : Space w := by
    refine ⟨h1, ?_⟩
    intro c hc
    rw [← hw] at hc
    have := List.all_eq_true.mp List.all_takeWhile c hc
    simpa [or_assoc] using this
  have := Attrs.cons hs (asciiName_name h2) hv .nil
  rw [h3]
  simpa [given] using this

theorem given_append (l m : List (String × Option Str)) : given (l ++ m) = given l ++ given m := by
  induction l with
  | nil => rfl
  | cons p l ih =>
    obtain ⟨n, o⟩ := p
    cases o <;> simp [given, ih]

theorem given_names (l : List (String × Option Str)) :
    ((given l).map Prod.fst).Sublist (l.map (fun p => p.1.toList)) := by
  induction l with
  | nil => simp [given]
  | cons p l ih =>
    obtain ⟨n, o⟩ := p
    cases o with
    | none => simpa [given] using ih.cons _
    | some v => simpa [given] using ih

theorem given_nodup {l : List (String × Option Str)} (h : (l.map Prod.fst).Nodup) : ((given l).map Prod.fst).Nodup := by
  refine (given_names l).nodup ?_
  have e : l.map (fun p => p.1.toList) = (l.map Prod.fst).map String.toList := by simp
  rw [e]
  exact List.pairwise_map.mpr (h.imp (fun hne e => hne (String.toList_inj.mp e)))

/-- An element after a line break. -/
theorem reads_elem {n a k : Str} {l : List (String × Option Str)} {ks : List Node} (hn : XmlName n)
    (ha : Attrs a (given l)) (hd : (l.map Prod.fst).Nodup) (hk : Reads k ks) :
    Reads ('<' :: (n ++ (a ++ '>' :: (k ++ '<' :: '/' :: (n ++ ['>']))))) [.elem n (given l) ks] := by
  have := Reads.elem hn ha (given_nodup hd) hk .nil
  simpa using this

/-- An empty element. -/
theorem reads_empty {n a : Str} {l : List (String × Option Str)} (hn : XmlName n)
    (ha : Attrs a (given l)) (hd : (l.map Prod.fst).Nodup) :
    Reads ('<' :: (n ++ (a ++ ['/', '>']))) [.elem n (given l) []] := by
  have := Reads.empty hn ha (given_nodup hd) .nil
  simpa using this

theorem reads_nl {s : Str} {ns : List Node} (h : Reads s ns) : Reads ('\n' :: s) (nl :: ns) :=
  .chr '\n' (by simp [XmlChar]) (by decide) (by decide) (by decide) (by decide +kernel) h

theorem optAttr_attrs (head n : String) {o : Option Str} (h : headOf head.toList n.toList = true) (ho : OptOk AttOk o) :
    Attrs (optAttr head o) (given [(n, present o)]) := by
  rcases o with _ | _ | ⟨c, t⟩
  · exact .nil
  · exact .nil
  · exact attrs_one h (attVal_xmlString (ho _ rfl))

theorem optRaw_attrs (head n : String) {o : Option Str} (h : headOf head.toList n.toList = true) (ho : OptOk RawOk o) :
    Attrs (optRaw head o) (given [(n, present o)]) := by
  rcases o with _ | _ | ⟨c, t⟩
  · exact .nil
  · exact .nil
  · exact attrs_one h (attVal_raw (ho _ rfl))

theorem rawOk_intText (n : Int) : RawOk (intText n) := by
  have key : ∀ m : Nat, ∀ c ∈ Nat.toDigits 10 m, 48 ≤ c.toNat ∧ c.toNat ≤ 57 := by
    intro m c hc
    rw [← toDigits_strNat] at hc
    have := List.all_eq_true.mp (strNat_all m) c hc
    simpa [isDigit] using this
  have main : ∀ c ∈ intText n, c = '-' ∨ (48 ≤ c.toNat ∧ c.toNat ≤ 57) := by
    intro c hc
    unfold intText at hc
    split at hc
    · simp only [List.mem_cons] at hc
      rcases hc with rfl | hc
      · exact .inl rfl
      · exact .inr (key _ _ hc)
    · exact .inr (key _ _ hc)
  refine ⟨?_, ?_, ?_⟩
  · intro c hc
    rcases main c hc with rfl | h
    · simp [XmlChar]
    · refine ⟨?_, ?_, ?_, ?_, ?_⟩
      · simp only [XmlChar]; omega
      all_goals (rintro rfl; revert h; decide)
  · intro hc; have := main _ hc; revert this; decide
  · intro hc; have := main _ hc; revert this; decide

theorem optInt_attrs (head n : String) {o : Option Int} (h : headOf head.toList n.toList = true) :
    Attrs (optInt head o) (given [(n, presentInt o)]) := by
  rcases o with _ | i
  · exact .nil
  · unfold optInt presentInt
    dsimp only
    split
    · exact .nil
    · rw [strInt_intText]; exact attrs_one h (attVal_raw (rawOk_intText i))

theorem rawOk_truth (b : Bool) : RawOk (truth b) := by
  cases b
  · refine ⟨?_, by decide, by decide⟩
    intro c hc
    simp [truth] at hc
    rcases hc with h | h | h | h | h <;> subst h <;> simp [XmlChar]
  · refine ⟨?_, by decide, by decide⟩
    intro c hc
    simp [truth] at hc
    rcases hc with h | h | h | h <;> subst h <;> simp [XmlChar]

theorem optBool_attrs (head n : String) {o : Option Bool} (h : headOf head.toList n.toList = true) :
    Attrs (optBool head o) (given [(n, o.map truth)]) := by
  rcases o with _ | b
  · exact .nil
  · exact attrs_one h (attVal_raw (rawOk_truth b))

theorem rawOk_append {s t : Str} (hs : RawOk s) (ht : RawOk t) : RawOk (s ++ t) := by
  refine ⟨?_, ?_, ?_⟩
  · intro c hc
    rcases List.mem_append.mp hc with h | h
    · exact hs.1 c h
    · exact ht.1 c h
  · simp [hs.2.1, ht.2.1]
  · simp [hs.2.2, ht.2.2]

theorem rawOk_separated {sep : Char} {l : List Str} (hsep : RawOk [sep]) (h : ∀ s ∈ l, RawOk s) :
    RawOk (separated sep l) := by
  fun_induction separated sep l with
  | case1 => exact ⟨by intro c hc; simp at hc, by simp, by simp⟩
  | case2 s => exact h s (by simp)
  | case3 s t ts ih =>
    refine rawOk_append (h s (by simp)) ?_
    exact rawOk_append (s := [sep]) hsep (ih (fun s hs => h s (by simp [hs])))

theorem rawOk_coords (coords : List Int) : RawOk (separated ',' (coords.map intText)) := by
  refine rawOk_separated ?_ ?_
  · exact ⟨by intro c hc; simp at hc; subst hc; simp [XmlChar], by decide, by decide⟩
  · intro s hs
    obtain ⟨n, _, rfl⟩ := List.mem_map.mp hs
    exact rawOk_intText n

theorem attrs_cons {s t : Str} {p : String × Option Str} {l : List (String × Option Str)}
    (h : Attrs s (given [p])) (h' : Attrs t (given l)) : Attrs (s ++ t) (given (p :: l)) := by
  have := attrs_append h h'
  rwa [← given_append] at this

theorem attrs_app {s t : Str} {l m : List (String × Option Str)}
    (h : Attrs s (given l)) (h' : Attrs t (given m)) : Attrs (s ++ t) (given (l ++ m)) := by
  have := attrs_append h h'
  rwa [← given_append] at this

theorem attrs_esc (head n : String) {v : Str} (h : headOf head.toList n.toList = true) (hv : AttOk v) :
    Attrs (head.toList ++ (xmlString v ++ ['"'])) (given [(n, some v)]) := by
  have := attrs_one h (attVal_xmlString hv)
  rwa [List.append_assoc] at this

theorem attrs_raw (head n : String) {v : Str} (h : headOf head.toList n.toList = true) (hv : RawOk v) :
    Attrs (head.toList ++ (v ++ ['"'])) (given [(n, some v)]) := by
  have := attrs_one h (attVal_raw hv)
  rwa [List.append_assoc] at this

theorem bodyAttrs_attrs {b : Body} (h : BodyOk b) : Attrs (bodyAttrs b) (given (bodyGiven b)) := by
  obtain ⟨h1, h2, h3, h4⟩ := h
  have := attrs_cons (optAttr_attrs " id=\"" "id" (by decide +kernel) h1)
    (attrs_cons (optAttr_attrs " class=\"" "class" (by decide +kernel) h2)
      (attrs_cons (optAttr_attrs " xml:lang=\"" "xml:lang" (by decide +kernel) h3)
        (optAttr_attrs " label=\"" "label" (by decide +kernel) h4)))
  simpa only [-String.reduceToList, bodyAttrs, bodyGiven, List.append_assoc] using this

theorem stringAttrs_attrs {a : StringAtts} (h : StringOk a) : Attrs (stringAttrs a) (given (stringGiven a)) := by
  have := attrs_cons (optRaw_attrs " stringIdentifier=\"" "stringIdentifier" (by decide +kernel) h)
    (attrs_cons (optInt_attrs " base=\"" "base" (o := a.base) (by decide +kernel))
      (optInt_attrs " expectedLength=\"" "expectedLength" (o := a.expectedLength) (by decide +kernel)))
  simpa only [-String.reduceToList, stringAttrs, stringGiven, List.append_assoc] using this

theorem interactionAttrs_attrs {r : Str} (h : RawOk r) :
    Attrs (interactionAttrs r) (given [("responseIdentifier", some r)]) := by
  unfold interactionAttrs
  rw [List.append_assoc]
  exact attrs_raw " responseIdentifier=\"" "responseIdentifier" (by decide +kernel) h

theorem choiceAttrs_attrs {i : Str} {f : Option Bool} (h : AttOk i) :
    Attrs (choiceAttrs i f) (given [("identifier", some i), ("fixed", f.map truth)]) := by
  have := attrs_cons (attrs_esc " identifier=\"" "identifier" (by decide +kernel) h)
    (optBool_attrs " fixed=\"" "fixed" (o := f) (by decide +kernel))
  have e : ∀ f : Option Bool, optBool " fixed=\"" f = (match f with
      | some true => " fixed=\"true\"".toList
      | some false => " fixed=\"false\"".toList
      | none => []) := by
    intro f
    rcases f with _ | _ | _
    · rfl
    · decide +kernel
    · decide +kernel
  rw [e] at this
  unfold choiceAttrs
  rw [List.append_assoc, List.append_assoc]
  rw [List.append_assoc, List.append_assoc] at this
  exact this

theorem boolText_truth (b : Bool) : boolText b = truth b := rfl

theorem shuffleAttr_attrs (b : Bool) : Attrs (shuffleAttr b) (given [("shuffle", some (truth b))]) := by
  have := attrs_raw " shuffle=\"" "shuffle" (by decide +kernel) (rawOk_truth b)
  have e : ∀ b : Bool, " shuffle=\"".toList ++ (truth b ++ ['"']) = shuffleAttr b := by decide +kernel
  rwa [e] at this

theorem intAttr_attrs (head n : String) {i : Int} (h : headOf head.toList n.toList = true) :
    Attrs (head.toList ++ (strInt i ++ ['"'])) (given [(n, some (intText i))]) := by
  rw [strInt_intText]
  exact attrs_raw head n h (rawOk_intText i)

theorem associableAttrs_attrs {i : Str} {f : Option Bool} {m : Int} {g : List Str} (h : AttOk i)
    (hg : ∀ s ∈ g, RawOk s) :
    Attrs (associableAttrs i f m g) (given [("identifier", some i), ("fixed", f.map truth),
      ("matchMax", some (intText m)), ("matchGroup", if g = [] then none else some (separated ' ' g))]) := by
  have hsp : RawOk [' '] := ⟨by intro c hc; simp at hc; subst hc; simp [XmlChar], by decide, by decide⟩
  have h2 : Attrs (if g = [] then [] else " matchGroup=\"".toList ++ join ' ' g ++ ['"'])
      (given [("matchGroup", if g = [] then none else some (separated ' ' g))]) := by
    by_cases hg0 : g = []
    · rw [if_pos hg0, if_pos hg0]; exact .nil
    · rw [if_neg hg0, if_neg hg0, join_separated, List.append_assoc]
      exact attrs_raw " matchGroup=\"" "matchGroup" (by decide +kernel) (rawOk_separated hsp hg)
  have := attrs_app (choiceAttrs_attrs (f := f) h) (attrs_cons (intAttr_attrs " matchMax=\"" "matchMax" (i := m) (by decide +kernel)) h2)
  unfold associableAttrs
  rw [List.append_assoc, List.append_assoc, List.append_assoc]
  rw [List.append_assoc, List.append_assoc] at this
  exact this

theorem hotspotAttrs_attrs {shape : Str} {coords : List Int} {label : Option Str} (h : AttOk shape)
    (hl : OptOk AttOk label) :
    Attrs (hotspotAttrs shape coords label) (given [("shape", some shape),
      ("coords", some (separated ',' (coords.map intText))), ("hotspotLabel", present label)]) := by
  have e : coords.map strInt = coords.map intText := by
    apply List.map_congr_left; intro n _; exact strInt_intText n
  have := attrs_cons (attrs_esc " shape=\"" "shape" (by decide +kernel) h)
    (attrs_cons (attrs_raw " coords=\"" "coords" (by decide +kernel) (rawOk_coords coords))
      (optAttr_attrs " hotspotLabel=\"" "hotspotLabel" (by decide +kernel) hl))
  unfold hotspotAttrs
  rw [join_separated, e]
  simp only [-String.reduceToList, List.append_assoc] at this ⊢
  exact this

theorem sizeAttrs_attrs {w h : Option Int} (hs : SizeOk w h) : Attrs (sizeAttrs w h) (given (sizeGiven w h)) := by
  unfold SizeOk presentInt at hs
  unfold sizeAttrs sizeGiven
  have h1 := optInt_attrs " width=\"" "width" (o := w) (by decide +kernel)
  refine attrs_cons h1 ?_
  rcases w with _ | w
  · have : presentInt h = none := by
      unfold presentInt; exact hs.mp rfl
    rw [this]; exact .nil
  · by_cases hw : w = 0
    · subst hw
      have : presentInt h = none := by
        unfold presentInt; exact hs.mp rfl
      rw [this]; exact .nil
    · have hw' : ¬ (if w = 0 then (none : Option Str) else some (intText w)) = none := by rw [if_neg hw]; simp
      dsimp only at hs ⊢
      rw [if_neg hw]
      rcases h with _ | h
      · exact absurd (hs.mpr rfl) hw'
      · by_cases hh : h = 0
        · subst hh; exact absurd (hs.mpr (by simp)) hw'
        · have : presentInt (some h) = some (intText h) := by simp [presentInt, hh]
          rw [this]
          have := intAttr_attrs " height=\"" "height" (i := h) (by decide +kernel)
          rw [List.append_assoc]
          exact this

theorem sliderAttrs_attrs {lo up : PyNum} {step : Option PyNum} {sl : Option Bool} {o : Option Str} {r : Option Bool}
    (h1 : RawOk lo.text) (h2 : RawOk up.text) (h3 : ∀ s, step = some s → RawOk s.text) (h4 : OptOk AttOk o) :
    Attrs (sliderAttrs lo up step sl o r) (given [("lowerBound", some lo.text), ("upperBound", some up.text),
      ("step", step.map PyNum.text), ("stepLabel", sl.map truth), ("orientation", present o),
      ("reverse", r.map truth)]) := by
  have hst : Attrs (match (generalizing := false) step with | none => [] | some s => " step=\"".toList ++ s.text ++ ['"'])
      (given [("step", step.map PyNum.text)]) := by
    rcases step with _ | s
    · exact .nil
    · exact attrs_one (head := " step=\"".toList) (by decide +kernel) (attVal_raw (h3 s rfl))
  have := attrs_cons (attrs_raw " lowerBound=\"" "lowerBound" (by decide +kernel) h1)
    (attrs_cons (attrs_raw " upperBound=\"" "upperBound" (by decide +kernel) h2)
      (attrs_cons hst (attrs_cons (optBool_attrs " stepLabel=\"" "stepLabel" (o := sl) (by decide +kernel))
        (attrs_cons (optAttr_attrs " orientation=\"" "orientation" (by decide +kernel) h4)
          (optBool_attrs " reverse=\"" "reverse" (o := r) (by decide +kernel))))))
  unfold sliderAttrs
  simp only [-String.reduceToList, List.append_assoc] at this ⊢
  exact this

theorem present_none_given {n : String} {o : Option Str} (h : present o = none) : given [(n, present o)] = [] := by
  rw [h]; rfl

theorem given_noBody {b : Body} (h : NoBody b) : given (bodyGiven b) = [] := by
  obtain ⟨h1, h2, h3, h4⟩ := h
  simp only [bodyGiven, h1, h2, h3, h4, given]


/-! ## Elements as they are written -/

/-- `op` opens and `cl` closes an element called `n`, after some line breaks each. -/
def tagged (op cl lead trail n : Str) : Bool :=
  decide (op = lead ++ '<' :: n) && decide (cl = trail ++ '<' :: '/' :: (n ++ ['>'])) && asciiName n &&
    lead.all (fun c => c = '\n' || c = '\t') && trail.all (fun c => c = '\n' || c = '\t')

theorem reads_breaks {lead : Str} (h : lead.all (fun c => c = '\n' || c = '\t') = true) : Reads lead (chars lead) := by
  induction lead with
  | nil => exact .nil
  | cons c t ih =>
    simp only [List.all_cons, Bool.and_eq_true, Bool.or_eq_true, decide_eq_true_eq] at h
    obtain ⟨rfl | rfl, h⟩ := h
    · exact reads_nl (ih h)
    · exact .chr '\t' (by simp [XmlChar]) (by decide) (by decide) (by decide) (by decide +kernel) (ih h)

theorem reads_tagged (op cl n : String) (lead trail : Str) {a k : Str} {l : List (String × Option Str)} {ks : List Node}
    (h : tagged op.toList cl.toList lead trail n.toList = true) (ha : Attrs a (given l)) (hd : (l.map Prod.fst).Nodup)
    (hk : Reads k ks) :
    Reads (op.toList ++ (a ++ (">".toList ++ (k ++ cl.toList))))
      (chars lead ++ [.elem n.toList (given l) (ks ++ chars trail)]) := by
  simp only [tagged, Bool.and_eq_true, decide_eq_true_eq] at h
  obtain ⟨⟨⟨⟨h1, h2⟩, h3⟩, h4⟩, h5⟩ := h
  have hk' := reads_append hk (reads_breaks h5)
  have := reads_append (reads_breaks h4) (reads_elem (asciiName_name h3) ha hd hk')
  rw [h1, h2]
  have e : ">".toList = ['>'] := by decide +kernel
  rw [e]
  simpa only [-String.reduceToList, List.append_assoc, List.cons_append, List.nil_append] using this

/-- The same for a name that is not fixed. -/
theorem reads_named {n a k : Str} {l : List (String × Option Str)} {ks : List Node}
    (hn : XmlName n) (ha : Attrs a (given l)) (hd : (l.map Prod.fst).Nodup) (hk : Reads k ks) :
    Reads ("<".toList ++ (n ++ (a ++ (">".toList ++ (k ++ ("</".toList ++ (n ++ ">".toList)))))))
      [.elem n (given l) ks] := by
  have := reads_elem hn ha hd hk
  have e : ">".toList = ['>'] := by decide +kernel
  have e2 : "<".toList = ['<'] := by decide +kernel
  have e3 : "</".toList = ['<', '/'] := by decide +kernel
  rw [e, e2, e3]
  simpa only [-String.reduceToList, List.append_assoc, List.cons_append, List.nil_append] using this

/-- `op` begins an empty element called `n`. -/
theorem reads_single (op n : String) (lead : Str) {a : Str} {l : List (String × Option Str)}
    (h : tagged op.toList ('<' :: '/' :: (n.toList ++ ['>'])) lead [] n.toList = true) (ha : Attrs a (given l))
    (hd : (l.map Prod.fst).Nodup) :
    Reads (op.toList ++ (a ++ "/>".toList)) (chars lead ++ [.elem n.toList (given l) []]) := by
  simp only [tagged, Bool.and_eq_true, decide_eq_true_eq] at h
  obtain ⟨⟨⟨⟨h1, h2⟩, h3⟩, h4⟩, h5⟩ := h
  have := reads_append (reads_breaks h4) (reads_empty (asciiName_name h3) ha hd)
  rw [h1]
  have e : "/>".toList = ['/', '>'] := by decide +kernel
  rw [e]
  simpa only [-String.reduceToList, List.append_assoc, List.cons_append, List.nil_append] using this

/-- `op` opens and `cl` closes an element called `n` without attributes. -/
theorem reads_plain (op cl n : String) (lead trail : Str) {k : Str} {ks : List Node}
    (h : (decide (op.toList = lead ++ '<' :: (n.toList ++ ['>'])) &&
      tagged (lead ++ '<' :: n.toList) cl.toList lead trail n.toList) = true) (hk : Reads k ks) :
    Reads (op.toList ++ (k ++ cl.toList)) (chars lead ++ [.elem n.toList [] (ks ++ chars trail)]) := by
  simp only [tagged, Bool.and_eq_true, decide_eq_true_eq] at h
  obtain ⟨h0, ⟨⟨⟨h1, h2⟩, h3⟩, h4⟩, h5⟩ := h
  have hk' := reads_append hk (reads_breaks h5)
  have := reads_append (reads_breaks h4) (reads_elem (l := []) (asciiName_name h3) .nil (by simp) hk')
  rw [h0, h2]
  simpa only [-String.reduceToList, List.append_assoc, List.cons_append, List.nil_append, given] using this

/-- The same for a name that is not fixed. -/
theorem reads_plain_named {n k : Str} {ks : List Node} (hn : XmlName n) (hk : Reads k ks) :
    Reads ("<".toList ++ (n ++ (">".toList ++ (k ++ ("</".toList ++ (n ++ ">".toList)))))) [.elem n [] ks] := by
  have := reads_named (l := []) hn .nil (by simp) hk
  simpa only [-String.reduceToList, List.nil_append, given] using this

theorem presentInt_some {n : Int} (h : n ≠ 0) : presentInt (some n) = some (intText n) := by
  simp [presentInt, h]

theorem viewText_views (view : List Str) : viewText view = viewsText view := by
  unfold viewText viewsText
  by_cases h : view = []
  · rw [if_pos h, if_pos h]; rfl
  · rw [if_neg h, if_neg h, join_separated]

theorem rawOk_views {view : List Str} (h : ∀ v ∈ view, RawOk v) : RawOk (viewsText view) := by
  unfold viewsText
  split
  · refine ⟨?_, by decide, by decide⟩
    intro c hc
    simp at hc
    rcases hc with h | h <;> subst h <;> simp [XmlChar]
  · exact rawOk_separated ⟨by intro c hc; simp at hc; subst hc; simp [XmlChar], by decide, by decide⟩ h

theorem chars_nl : chars ['\n'] = [nl] := rfl
theorem chars_nil : chars [] = [] := rfl
theorem quoteGt : "\">".toList = ['"'] ++ ">".toList := by decide +kernel
theorem quoteEnd : "\"/>".toList = ['"'] ++ "/>".toList := by decide +kernel
theorem nlOpen : "\n<".toList = ['\n'] ++ "<".toList := by decide +kernel

/-- Bring two readings of the same text to the same shape. -/
macro "shaped" h:ident : tactic =>
  `(tactic| (simp only [-String.reduceToList, List.append_assoc, List.cons_append, List.nil_append,
      List.append_nil, Verif.Spec.chars_nl, Verif.Spec.chars_nil] at $h:ident ⊢; exact $h:ident))

/-- Choose the branch of a definition by cases. -/
macro "opened" : tactic => `(tactic| simp only [-String.reduceToList])

end Verif.Spec
