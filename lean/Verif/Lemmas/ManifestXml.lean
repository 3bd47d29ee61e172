import Verif.Spec.ManifestXml
import Verif.Lemmas.ItemXml

/-!
# Pieces of written documents, up to layout
-/

set_option linter.unusedVariables false

namespace Verif.Spec

open Verif.XmlUtils Verif.ItemXml

/-- The text is read as these nodes, up to white space between elements. -/
def Writes (s : Str) (ys : List Node) : Prop := ∃ xs, Reads s xs ∧ LaidOuts xs ys

theorem writes_nil : Writes [] [] := ⟨[], .nil, .nil⟩

theorem laidOuts_append {a b c d : List Node} (h : LaidOuts a b) (h' : LaidOuts c d) : LaidOuts (a ++ c) (b ++ d) := by
  induction a generalizing b with
  | nil => cases h; exact h'
  | cons x a ih =>
    cases h with
    | white ch hc h => exact .white ch hc (ih h)
    | cons hx h => exact .cons hx (ih h)

theorem writes_append {s t : Str} {ys zs : List Node} (h : Writes s ys) (h' : Writes t zs) : Writes (s ++ t) (ys ++ zs) := by
  obtain ⟨xs, h1, h2⟩ := h
  obtain ⟨xs', h1', h2'⟩ := h'
  exact ⟨xs ++ xs', reads_append h1 h1', laidOuts_append h2 h2'⟩

theorem writes_flatMap {α : Type} {l : List α} {f : α → Str} {g : α → List Node} (h : ∀ x ∈ l, Writes (f x) (g x)) :
    Writes (l.flatMap f) (l.flatMap g) := by
  induction l with
  | nil => exact writes_nil
  | cons x l ih =>
    simp only [List.flatMap_cons]
    exact writes_append (h x (by simp)) (ih fun y hy => h y (by simp [hy]))

theorem flatMap_one {α β : Type} (l : List α) (g : α → β) : l.flatMap (fun x => [g x]) = l.map g := by
  induction l with
  | nil => rfl
  | cons x l ih => simp [ih]

theorem writes_map {α : Type} {l : List α} {f : α → Str} {g : α → Node} (h : ∀ x ∈ l, Writes (f x) [g x]) :
    Writes (l.flatMap f) (l.map g) := by
  have := writes_flatMap (g := fun x => [g x]) h
  rwa [flatMap_one] at this

theorem laid_breaks {w : Str} (h : w.all (fun c => c = '\n' || c = '\t') = true) : LaidOuts (chars w) [] := by
  induction w with
  | nil => exact .nil
  | cons c t ih =>
    simp only [List.all_cons, Bool.and_eq_true, Bool.or_eq_true, decide_eq_true_eq] at h
    exact .white c (by rcases h.1 with rfl | rfl <;> simp) (ih h.2)

/-- `op` and `cl` are the tags of an element called `n`, after some line breaks each. -/
def blockTag (op cl lead trail n : Str) : Bool :=
  decide (op = lead ++ '<' :: (n ++ ['>'])) && decide (cl = trail ++ '<' :: '/' :: (n ++ ['>'])) && asciiName n &&
    lead.all (fun c => c = '\n' || c = '\t') && trail.all (fun c => c = '\n' || c = '\t')

theorem reads_block {op cl lead trail n k : Str} {ks : List Node} (h : blockTag op cl lead trail n = true)
    (hk : Reads k ks) : Reads (op ++ (k ++ cl)) (chars lead ++ [.elem n [] (ks ++ chars trail)]) := by
  simp only [blockTag, Bool.and_eq_true, decide_eq_true_eq] at h
  obtain ⟨⟨⟨⟨h1, h2⟩, h3⟩, h4⟩, h5⟩ := h
  have := reads_append (reads_breaks h4)
    (reads_elem (l := []) (asciiName_name h3) .nil (by simp) (reads_append hk (reads_breaks h5)))
  rw [h1, h2]
  simpa only [List.append_assoc, List.cons_append, List.nil_append, given] using this

/-- An element that holds elements. -/
theorem writes_block {op cl k : Str} {ys : List Node} (n : String) (lead trail : Str)
    (h : (blockTag op cl lead trail n.toList && decide (n.toList ∉ textElements)) = true) (hk : Writes k ys) :
    Writes (op ++ (k ++ cl)) [el n ys] := by
  rw [Bool.and_eq_true, decide_eq_true_eq] at h
  obtain ⟨h, hn⟩ := h
  obtain ⟨xs, h1, h2⟩ := hk
  refine ⟨_, reads_block h h1, ?_⟩
  simp only [blockTag, Bool.and_eq_true] at h
  have hl := laid_breaks h.1.2
  have ht := laid_breaks h.2
  have hin : LaidOuts (xs ++ chars trail) ys := by
    have := laidOuts_append h2 ht
    rwa [List.append_nil] at this
  exact laidOuts_append hl (.cons (.elems _ _ hn hin) .nil)

/-- An element that holds a text. -/
theorem writes_text {op cl k s : Str} (n : String) (lead : Str)
    (h : (blockTag op cl lead [] n.toList && decide (n.toList ∈ textElements)) = true) (hk : Reads k (chars s)) :
    Writes (op ++ (k ++ cl)) [el n (chars s)] := by
  rw [Bool.and_eq_true, decide_eq_true_eq] at h
  obtain ⟨h, hn⟩ := h
  refine ⟨_, reads_block h hk, ?_⟩
  simp only [blockTag, Bool.and_eq_true] at h
  rw [chars_nil, List.append_nil]
  exact laidOuts_append (laid_breaks h.1.2) (.cons (.text _ _ _ hn) .nil)

/-- `op` begins the tag of an element called `n`, after some line breaks, and `cl` is its end tag. -/
def openTag (op cl lead trail n : Str) : Bool := blockTag (op ++ ['>']) cl lead trail n

theorem reads_open {op a cl lead trail n k : Str} {ks : List Node} {l : List (String × Option Str)}
    (h : openTag op cl lead trail n = true) (ha : Attrs a (given l)) (hd : (l.map Prod.fst).Nodup) (hk : Reads k ks) :
    Reads (op ++ (a ++ (">".toList ++ (k ++ cl)))) (chars lead ++ [.elem n (given l) (ks ++ chars trail)]) := by
  simp only [openTag, blockTag, Bool.and_eq_true, decide_eq_true_eq] at h
  obtain ⟨⟨⟨⟨h1, h2⟩, h3⟩, h4⟩, h5⟩ := h
  have h1' : op = lead ++ '<' :: n := by
    have : op ++ ['>'] = (lead ++ '<' :: n) ++ ['>'] := by rw [h1]; simp
    exact List.append_cancel_right this
  have := reads_append (reads_breaks h4)
    (reads_elem (asciiName_name h3) ha hd (reads_append hk (reads_breaks h5)))
  rw [h1', h2]
  have e : ">".toList = ['>'] := by decide +kernel
  rw [e]
  simpa only [List.append_assoc, List.cons_append, List.nil_append] using this

/-- An element with attributes that holds elements. -/
theorem writes_open {op a cl k : Str} {ys : List Node} {l : List (String × Option Str)} (n : String) (lead trail : Str)
    (h : (openTag op cl lead trail n.toList && decide (n.toList ∉ textElements)) = true)
    (ha : Attrs a (given l)) (hd : (l.map Prod.fst).Nodup) (hk : Writes k ys) :
    Writes (op ++ (a ++ (">".toList ++ (k ++ cl)))) [.elem n.toList (given l) ys] := by
  rw [Bool.and_eq_true, decide_eq_true_eq] at h
  obtain ⟨h, hn⟩ := h
  obtain ⟨xs, h1, h2⟩ := hk
  refine ⟨_, reads_open h ha hd h1, ?_⟩
  simp only [openTag, blockTag, Bool.and_eq_true] at h
  have hl := laid_breaks h.1.2
  have ht := laid_breaks h.2
  have hin : LaidOuts (xs ++ chars trail) ys := by
    have := laidOuts_append h2 ht
    rwa [List.append_nil] at this
  exact laidOuts_append hl (.cons (.elems _ _ hn hin) .nil)

/-- An element with attributes that holds a text. -/
theorem writes_open_text {op a cl k s : Str} {l : List (String × Option Str)} (n : String) (lead : Str)
    (h : (openTag op cl lead [] n.toList && decide (n.toList ∈ textElements)) = true)
    (ha : Attrs a (given l)) (hd : (l.map Prod.fst).Nodup) (hk : Reads k (chars s)) :
    Writes (op ++ (a ++ (">".toList ++ (k ++ cl)))) [.elem n.toList (given l) (chars s)] := by
  rw [Bool.and_eq_true, decide_eq_true_eq] at h
  obtain ⟨h, hn⟩ := h
  refine ⟨_, reads_open h ha hd hk, ?_⟩
  simp only [openTag, blockTag, Bool.and_eq_true] at h
  rw [chars_nil, List.append_nil]
  exact laidOuts_append (laid_breaks h.1.2) (.cons (.text _ _ _ hn) .nil)

/-- An element written as an empty tag. -/
theorem writes_single {op a : Str} {l : List (String × Option Str)} (n : String) (lead : Str)
    (h : (openTag op ('<' :: '/' :: (n.toList ++ ['>'])) lead [] n.toList && decide (n.toList ∉ textElements)) = true)
    (ha : Attrs a (given l)) (hd : (l.map Prod.fst).Nodup) :
    Writes (op ++ (a ++ "/>".toList)) [.elem n.toList (given l) []] := by
  rw [Bool.and_eq_true, decide_eq_true_eq] at h
  obtain ⟨h, hn⟩ := h
  simp only [openTag, blockTag, Bool.and_eq_true, decide_eq_true_eq] at h
  obtain ⟨⟨⟨⟨h1, h2⟩, h3⟩, h4⟩, h5⟩ := h
  have h1' : op = lead ++ '<' :: n.toList := by
    have : op ++ ['>'] = (lead ++ '<' :: n.toList) ++ ['>'] := by rw [h1]; simp
    exact List.append_cancel_right this
  have := reads_append (reads_breaks h4) (reads_empty (asciiName_name h3) ha hd)
  refine ⟨_, ?_, laidOuts_append (laid_breaks h4) (.cons (.elems _ _ hn .nil) .nil)⟩
  rw [h1']
  have e : "/>".toList = ['/', '>'] := by decide +kernel
  rw [e]
  simpa only [List.append_assoc, List.cons_append, List.nil_append] using this

/-- White space in an attribute value is reported as spaces. -/
theorem attVal_flat {s : Str} (h : ∀ c ∈ s, XmlChar c ∧ c ≠ '\r' ∧ c ≠ '"' ∧ c ≠ '<' ∧ c ≠ '&') :
    AttVal s (s.map fun c => if c = '\t' ∨ c = '\n' then ' ' else c) := by
  induction s with
  | nil => exact .nil
  | cons c t ih =>
    have ht := ih fun d hd => h d (by simp [hd])
    obtain ⟨h1, h2, h3, h4, h5⟩ := h c (by simp)
    rw [List.map_cons]
    by_cases hc : c = '\t' ∨ c = '\n'
    · rw [if_pos hc]; exact .space c hc ht
    · rw [if_neg hc]
      exact .chr c h1 h4 h5 h3 (fun e => hc (.inl e)) (fun e => hc (.inr e)) h2 ht

end Verif.Spec
