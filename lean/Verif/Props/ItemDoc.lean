import Verif.Props.ItemXml
import Verif.Props.XmlUtils

/-!
# A written item is a document that carries the item
-/

set_option linter.unusedVariables false

namespace Verif.Props

open Verif Verif.Py Verif.XmlUtils Verif.ItemXml Verif.Spec

/-! ## Declarations and feedback -/

theorem reads_writeDefault {d : Default} (h1 : TextOk d.value) (h2 : OptOk AttOk d.interpretation) :
    Reads (writeDefault d) (defaultTree d) := by
  have hv := reads_plain "<value>" "</value>" "value" [] [] (by decide +kernel) (reads_xmlString h1)
  have := reads_tagged "\n<defaultValue" "</defaultValue>" "defaultValue" ['\n'] [] (by decide +kernel)
    (optAttr_attrs " interpretation=\"" "interpretation" (by decide +kernel) h2) (by simp) hv
  unfold writeDefault defaultTree
  shaped this

theorem quoteCardinality : "\" cardinality=\"".toList = ['"'] ++ " cardinality=\"".toList := by decide +kernel
theorem quoteBaseType : "\" baseType=\"".toList = ['"'] ++ " baseType=\"".toList := by decide +kernel

/-- An element with or without a default value. -/
theorem reads_declEnd (op cl n : String) {a : Str} {l : List (String × Option Str)} (d : Decl)
    (h : tagged op.toList cl.toList ['\n'] [] n.toList = true)
    (h' : tagged op.toList ('<' :: '/' :: (n.toList ++ ['>'])) ['\n'] [] n.toList = true)
    (hc : cl.toList = "</".toList ++ (n.toList ++ ">".toList))
    (ha : Attrs a (given l)) (hd : (l.map Prod.fst).Nodup)
    (hv : ∀ v, d.default = some v → TextOk v.value ∧ OptOk AttOk v.interpretation) :
    Reads (op.toList ++ (a ++ declEnd d n.toList))
      [nl, .elem n.toList (given l) (match d.default with | none => [] | some v => defaultTree v)] := by
  unfold declEnd
  rcases hdv : d.default with _ | v
  · exact reads_single op n ['\n'] h' ha hd
  · have := reads_tagged op cl n ['\n'] [] h ha hd (reads_writeDefault (hv v hdv).1 (hv v hdv).2)
    rw [hc] at this
    shaped this

theorem reads_responseDecl {d : Decl} (h : DeclOk d) (ho : d.outcome = false) :
    Reads (writeResponseDecl d) (declTree d) := by
  obtain ⟨h1, h2, h3, h4, h5, h6⟩ := h
  have ha := attrs_cons (attrs_raw " identifier=\"" "identifier" (by decide +kernel) h1)
    (attrs_cons (attrs_raw " cardinality=\"" "cardinality" (by decide +kernel) h2)
      (attrs_raw " baseType=\"" "baseType" (by decide +kernel) h3))
  have := reads_declEnd "\n<responseDeclaration" "</responseDeclaration>" "responseDeclaration" d (by decide +kernel)
    (by decide +kernel) (by decide +kernel) ha (by simp) h5
  have e : "\n<responseDeclaration identifier=\"".toList = "\n<responseDeclaration".toList ++ " identifier=\"".toList := by
    decide +kernel
  unfold writeResponseDecl declTree
  rw [ho, e, quoteCardinality, quoteBaseType]
  simp only [-String.reduceToList, Bool.false_eq_true, if_false]
  shaped this

theorem reads_outcomeDecl {d : Decl} (h : DeclOk d) (ho : d.outcome = true) :
    Reads (writeOutcomeDecl d) (declTree d) := by
  obtain ⟨h1, h2, h3, h4, h5, h6⟩ := h
  have hm : Attrs (match (generalizing := false) d.normalMaximum with
      | none => []
      | some m => if m.zero then [] else " normalMaximum=\"".toList ++ m.text ++ ['"'])
      (given [("normalMaximum", d.normalMaximum.map PyNum.text)]) := by
    rcases hd : d.normalMaximum with _ | m
    · exact .nil
    · obtain ⟨h7, h8⟩ := h6 m hd
      simp only [h8, -String.reduceToList, Bool.false_eq_true, if_false]
      rw [List.append_assoc]
      exact attrs_raw " normalMaximum=\"" "normalMaximum" (by decide +kernel) h7
  have ha := attrs_cons (attrs_raw " identifier=\"" "identifier" (by decide +kernel) h1)
    (attrs_cons (attrs_raw " cardinality=\"" "cardinality" (by decide +kernel) h2)
      (attrs_cons (attrs_raw " baseType=\"" "baseType" (by decide +kernel) h3)
        (attrs_cons (optAttr_attrs " interpretation=\"" "interpretation" (by decide +kernel) h4) hm)))
  have := reads_declEnd "\n<outcomeDeclaration" "</outcomeDeclaration>" "outcomeDeclaration" d (by decide +kernel)
    (by decide +kernel) (by decide +kernel) ha (by simp) h5
  have e : "\n<outcomeDeclaration identifier=\"".toList = "\n<outcomeDeclaration".toList ++ " identifier=\"".toList := by
    decide +kernel
  unfold writeOutcomeDecl declTree
  rw [ho, e, quoteCardinality, quoteBaseType]
  simp only [-String.reduceToList, if_true]
  shaped this

theorem reads_flatMap {α : Type} {w : α → Str} {t : α → List Node} {l : List α} (h : ∀ x ∈ l, Reads (w x) (t x)) :
    Reads (l.flatMap w) (l.flatMap t) := by
  induction l with
  | nil => exact .nil
  | cons x l ih =>
    rw [List.flatMap_cons, List.flatMap_cons]
    exact reads_append (h x (by simp)) (ih (fun y hy => h y (by simp [hy])))

theorem reads_writeFeedback {m : Feedback} (h : FeedbackOk m) : Reads (writeFeedback m) (feedbackTree m) := by
  obtain ⟨h1, h2, h3, h4, h5⟩ := h
  have ht : given [("title", present m.title)] = [] := by rw [h4]; rfl
  have ha := attrs_cons (attrs_esc " outcomeIdentifier=\"" "outcomeIdentifier" (by decide +kernel) h1)
    (attrs_cons (attrs_esc " showHide=\"" "showHide" (by decide +kernel) h2)
      (attrs_esc " identifier=\"" "identifier" (by decide +kernel) h3))
  have hg : given [("outcomeIdentifier", some m.outcomeIdentifier), ("showHide", some m.showHide),
      ("identifier", some m.identifier), ("title", present m.title)] =
      given [("outcomeIdentifier", some m.outcomeIdentifier), ("showHide", some m.showHide),
      ("identifier", some m.identifier)] := by
    rw [h4]; rfl
  have := reads_tagged "\n<modalFeedback" "</modalFeedback>" "modalFeedback" ['\n'] [] (by decide +kernel) ha (by simp)
    (reads_writeElts m.kids h5)
  unfold writeFeedback feedbackTree
  rw [hg]
  shaped this

/-! ## The order of the declarations -/

theorem strLe_iff (s t : Str) : strLe s t = true ↔ ¬ t < s := by
  induction s generalizing t with
  | nil => simp [strLe]
  | cons a s ih =>
    cases t with
    | nil => simp [strLe]
    | cons b t =>
      rw [strLe, List.cons_lt_cons_iff]
      by_cases h1 : a.toNat < b.toNat
      · rw [if_pos h1]
        have : ¬ b < a := by
          intro h
          have : b.toNat < a.toNat := h
          omega
        have h2 : b ≠ a := by intro e; subst e; omega
        simp [this, h2]
      · rw [if_neg h1]
        by_cases h2 : b.toNat < a.toNat
        · rw [if_pos h2]
          have : b < a := h2
          simp [this]
        · rw [if_neg h2]
          have e : b = a := by
            apply Char.ext
            apply UInt32.toNat_inj.mp
            simp only [Char.toNat] at h1 h2
            omega
          subst e
          have : ¬ b < b := by
            intro h
            have : b.toNat < b.toNat := h
            omega
          rw [ih]
          simp [this]

theorem perm_insertDecl (d : Decl) (l : List Decl) : (insertDecl d l).Perm (d :: l) := by
  induction l with
  | nil => exact .refl _
  | cons e es ih =>
    rw [insertDecl]
    split
    · exact .refl _
    · exact (List.Perm.cons e ih).trans (.swap d e es)

theorem perm_sortDecls (l : List Decl) : (sortDecls l).Perm l := by
  induction l with
  | nil => exact .refl _
  | cons d ds ih => exact (perm_insertDecl d _).trans (ih.cons d)

theorem strLt_trans {a b c : Str} (h : ¬ b < a) (h' : ¬ c < b) : ¬ c < a := by
  have h1 : a ≤ b := h
  have h2 : b ≤ c := h'
  exact List.le_trans h1 h2

theorem inOrder_insert (d : Decl) (l : List Decl) (h : InOrder l) : InOrder (insertDecl d l) := by
  induction l with
  | nil => simp [insertDecl, InOrder]
  | cons e es ih =>
    obtain ⟨h1, h2⟩ := List.pairwise_cons.mp h
    rw [insertDecl]
    split
    · rename_i hle
      refine List.pairwise_cons.mpr ⟨?_, h⟩
      intro x hx
      have hde := (strLe_iff _ _).mp hle
      rcases List.mem_cons.mp hx with rfl | hx
      · exact hde
      · exact strLt_trans hde (h1 x hx)
    · rename_i hle
      refine List.pairwise_cons.mpr ⟨?_, ih h2⟩
      intro x hx
      rcases List.mem_cons.mp ((perm_insertDecl d es).mem_iff.mp hx) with rfl | hx
      · intro hlt
        apply hle
        rw [strLe_iff]
        exact fun h => List.lt_asymm h hlt
      · exact h1 x hx

theorem inOrder_sort (l : List Decl) : InOrder (sortDecls l) := by
  induction l with
  | nil => exact List.Pairwise.nil
  | cons d ds ih => exact inOrder_insert d _ ih

/-! ## The item -/

theorem attrs_item (it : Item) (h : ItemOk it) :
    Attrs ("\n\txmlns=\"http://www.imsglobal.org/xsd/imsqti_v2p1\"".toList ++
    ("\n\txmlns:xsi=\"http://www.w3.org/2001/XMLSchema-instance\"".toList ++
    ("\n\txsi:schemaLocation=\"http://www.imsglobal.org/xsd/imsqti_v2p1 http://www.imsglobal.org/xsd/imsqti_v2p1.xsd\"".toList ++
    (" identifier=\"".toList ++ (xmlString it.identifier ++ (['"'] ++
    ("\n title=\"".toList ++ (xmlString it.title ++ (['"'] ++
    (optAttr "\n label=\"" it.label ++ (optAttr "\n xml:lang=\"" it.language ++
    ("\n adaptive=\"".toList ++ (boolText it.adaptive ++ (['"'] ++
    ("\n timeDependent=\"".toList ++ (boolText it.timeDependent ++ (['"'] ++
    (optAttr "\n toolName=\"" it.toolName ++ optAttr "\n toolVersion=\"" it.toolVersion))))))))))))))))))
    (given [("xmlns", some "http://www.imsglobal.org/xsd/imsqti_v2p1".toList),
      ("xmlns:xsi", some "http://www.w3.org/2001/XMLSchema-instance".toList),
      ("xsi:schemaLocation", some
        "http://www.imsglobal.org/xsd/imsqti_v2p1 http://www.imsglobal.org/xsd/imsqti_v2p1.xsd".toList),
      ("identifier", some it.identifier), ("title", some it.title), ("label", present it.label),
      ("xml:lang", present it.language), ("adaptive", some (truth it.adaptive)),
      ("timeDependent", some (truth it.timeDependent)), ("toolName", present it.toolName),
      ("toolVersion", present it.toolVersion)]) := by
  obtain ⟨h1, h2, h3, h4, h5, h6, -⟩ := h
  have fixed : ∀ head n : String, ∀ v : Str, headOf head.toList n.toList = true →
      v.all (fun c => decide (32 ≤ c.toNat ∧ c.toNat ≤ 126) && !(c == '"' || c == '<' || c == '&')) = true →
      Attrs (head.toList ++ (v ++ ['"'])) (given [(n, some v)]) := by
    intro head n v hh hv
    refine attrs_raw head n hh ?_
    rw [List.all_eq_true] at hv
    have key : ∀ c ∈ v, (32 ≤ c.toNat ∧ c.toNat ≤ 126) ∧ c ≠ '"' ∧ c ≠ '<' ∧ c ≠ '&' := by
      intro c hc
      have := hv c hc
      simp only [Bool.and_eq_true, decide_eq_true_eq, Bool.not_eq_true', Bool.or_eq_false_iff, beq_eq_false_iff_ne] at this
      exact ⟨this.1, this.2.1.1, this.2.1.2, this.2.2⟩
    refine ⟨?_, ?_, ?_⟩
    · intro c hc
      obtain ⟨⟨k1, k2⟩, k3, k4, k5⟩ := key c hc
      refine ⟨?_, ?_, ?_, ?_, k3⟩
      · unfold XmlChar; simp only; omega
      · rintro rfl; simp at k1
      · rintro rfl; simp at k1
      · rintro rfl; simp at k1
    · intro hc; exact (key _ hc).2.2.1 rfl
    · intro hc; exact (key _ hc).2.2.2 rfl
  have e1 : "\n\txmlns=\"http://www.imsglobal.org/xsd/imsqti_v2p1\"".toList =
      "\n\txmlns=\"".toList ++ ("http://www.imsglobal.org/xsd/imsqti_v2p1".toList ++ ['"']) := by decide +kernel
  have e2 : "\n\txmlns:xsi=\"http://www.w3.org/2001/XMLSchema-instance\"".toList =
      "\n\txmlns:xsi=\"".toList ++ ("http://www.w3.org/2001/XMLSchema-instance".toList ++ ['"']) := by decide +kernel
  have e3 : "\n\txsi:schemaLocation=\"http://www.imsglobal.org/xsd/imsqti_v2p1 http://www.imsglobal.org/xsd/imsqti_v2p1.xsd\"".toList =
      "\n\txsi:schemaLocation=\"".toList ++
        ("http://www.imsglobal.org/xsd/imsqti_v2p1 http://www.imsglobal.org/xsd/imsqti_v2p1.xsd".toList ++ ['"']) := by
    decide +kernel
  have := attrs_cons (fixed "\n\txmlns=\"" "xmlns" "http://www.imsglobal.org/xsd/imsqti_v2p1".toList
      (by decide +kernel) (by decide +kernel))
    (attrs_cons (fixed "\n\txmlns:xsi=\"" "xmlns:xsi" "http://www.w3.org/2001/XMLSchema-instance".toList
      (by decide +kernel) (by decide +kernel))
    (attrs_cons (fixed "\n\txsi:schemaLocation=\"" "xsi:schemaLocation" "http://www.imsglobal.org/xsd/imsqti_v2p1 http://www.imsglobal.org/xsd/imsqti_v2p1.xsd".toList
      (by decide +kernel) (by decide +kernel))
    (attrs_cons (attrs_esc " identifier=\"" "identifier" (by decide +kernel) h1)
    (attrs_cons (attrs_esc "\n title=\"" "title" (by decide +kernel) h2)
    (attrs_cons (optAttr_attrs "\n label=\"" "label" (by decide +kernel) h3)
    (attrs_cons (optAttr_attrs "\n xml:lang=\"" "xml:lang" (by decide +kernel) h4)
    (attrs_cons (attrs_raw "\n adaptive=\"" "adaptive" (by decide +kernel) (rawOk_truth it.adaptive))
    (attrs_cons (attrs_raw "\n timeDependent=\"" "timeDependent" (by decide +kernel) (rawOk_truth it.timeDependent))
    (attrs_cons (optAttr_attrs "\n toolName=\"" "toolName" (by decide +kernel) h5)
    (optAttr_attrs "\n toolVersion=\"" "toolVersion" (by decide +kernel) h6))))))))))
  rw [← e1, ← e2, ← e3] at this
  rw [boolText_truth, boolText_truth]
  simp only [-String.reduceToList, List.append_assoc] at this ⊢
  exact this

theorem reads_writeRP {rules : List Rule} (h : RulesOk rules) :
    Reads (writeRP rules) (match rules with
      | [] => []
      | r :: rs => [nl, .elem "responseProcessing".toList [] (ruleTrees (r :: rs) ++ [nl])]) := by
  unfold writeRP
  cases rules with
  | nil => exact .nil
  | cons r rs =>
    simp only [-String.reduceToList, List.isEmpty_cons, Bool.false_eq_true, if_false]
    have := reads_plain "\n<responseProcessing>" "\n</responseProcessing>" "responseProcessing" ['\n'] ['\n']
      (by decide +kernel) (reads_writeRules (r :: rs) h)
    shaped this

theorem reads_writeItem (it : Item) (h : ItemOk it) :
    Reads (writeItem it) [itemTree it ((sortDecls it.variables).filter (fun d => !d.outcome))
      ((sortDecls it.variables).filter (fun d => d.outcome)), nl] := by
  have hh := attrs_item it h
  obtain ⟨-, -, -, -, -, -, h1, h2, h3, h4⟩ := h
  have hr : Reads (((sortDecls it.variables).filter (fun d => !d.outcome)).flatMap writeResponseDecl)
      (((sortDecls it.variables).filter (fun d => !d.outcome)).flatMap declTree) := by
    refine reads_flatMap ?_
    intro d hd
    rw [List.mem_filter] at hd
    exact reads_responseDecl (h1 d ((perm_sortDecls _).mem_iff.mp hd.1)) (by simpa using hd.2)
  have ho : Reads (((sortDecls it.variables).filter (fun d => d.outcome)).flatMap writeOutcomeDecl)
      (((sortDecls it.variables).filter (fun d => d.outcome)).flatMap declTree) := by
    refine reads_flatMap ?_
    intro d hd
    rw [List.mem_filter] at hd
    exact reads_outcomeDecl (h1 d ((perm_sortDecls _).mem_iff.mp hd.1)) hd.2
  have hb : Reads (match (generalizing := false) it.itemBody with
      | none => []
      | some (b, blocks) =>
        "\n<itemBody".toList ++ bodyAttrs b ++ ">".toList ++ writeElts blocks ++ "\n</itemBody>".toList)
      (match (generalizing := false) it.itemBody with
       | none => []
       | some (b, blocks) => [nl, .elem "itemBody".toList (given (bodyGiven b)) (markups blocks ++ [nl])]) := by
    rcases hi : it.itemBody with _ | ⟨b, blocks⟩
    · exact .nil
    · obtain ⟨k1, k2⟩ := h2 b blocks hi
      have := reads_tagged "\n<itemBody" "\n</itemBody>" "itemBody" ['\n'] ['\n'] (by decide +kernel) (bodyAttrs_attrs k1)
        (by simp [bodyGiven]) (reads_writeElts blocks k2)
      shaped this
  have hp : Reads (match (generalizing := false) it.responseProcessing with
      | none => []
      | some rules => writeRP rules)
      (match (generalizing := false) it.responseProcessing with
       | none => []
       | some [] => []
       | some rules => [nl, .elem "responseProcessing".toList [] (ruleTrees rules ++ [nl])]) := by
    rcases hi : it.responseProcessing with _ | rules
    · exact .nil
    · have := reads_writeRP (h3 rules hi)
      cases rules with
      | nil => exact this
      | cons r rs => exact this
  have hf : Reads (it.modalFeedback.flatMap writeFeedback) (it.modalFeedback.flatMap feedbackTree) :=
    reads_flatMap (fun m hm => reads_writeFeedback (h4 m hm))
  have hk := reads_append (reads_append (reads_append (reads_append hr ho) hb) hp) hf
  have := reads_append (reads_tagged "<assessmentItem" "\n</assessmentItem>" "assessmentItem" [] ['\n'] (by decide +kernel) hh
    (by simp) hk) (reads_nl .nil)
  have e : "\n</assessmentItem>\n".toList = "\n</assessmentItem>".toList ++ ['\n'] := by decide +kernel
  unfold writeItem itemTree
  rw [e]
  shaped this

/-! ## The file -/

theorem textOk_encodeComment {msg : Str} (h : TextOk msg) : TextOk (encodeComment msg) := by
  fun_induction encodeComment msg with
  | case1 t ih =>
    intro c hc
    simp only [List.mem_cons] at hc
    rcases hc with rfl | rfl | rfl | rfl | hc
    · exact h '-' (by simp)
    · exact ⟨by simp [XmlChar], by decide⟩
    · exact h '-' (by simp)
    · exact ⟨by simp [XmlChar], by decide⟩
    · exact ih (fun d hd => h d (by simp [hd])) c hc
  | case2 c t hne ih =>
    intro d hd
    rcases List.mem_cons.mp hd with rfl | hd
    · exact h d (by simp)
    · exact ih (fun d hd => h d (by simp [hd])) d hd
  | case3 => exact h

theorem reads_comment {msg s : Str} {ns : List Node} (h : TextOk msg) (hs : Reads s ns) :
    Reads ("<!--\n".toList ++ encodeComment msg ++ "\t-->\n\n".toList ++ s) ([nl, nl] ++ ns) := by
  have hwf := item_comment_well_formed msg
  unfold WellFormedCommentBody at hwf
  have hd : ∀ c ∈ itemCommentBody msg, XmlChar c ∧ c ≠ '\r' := by
    intro c hc
    unfold itemCommentBody at hc
    simp only [List.mem_cons, List.mem_append, List.not_mem_nil, or_false] at hc
    rcases hc with rfl | hc | rfl
    · exact ⟨by simp [XmlChar], by decide⟩
    · exact textOk_encodeComment h c hc
    · exact ⟨by simp [XmlChar], by decide⟩
  have hno : ¬ Occurs ['-', '-'] (itemCommentBody msg ++ ['-']) := by
    intro ho
    rcases List.infix_concat_iff.mp ho with hsuf | hin
    · obtain ⟨p, hp⟩ := hsuf
      have e : p ++ ['-'] = itemCommentBody msg := by
        have : (p ++ ['-']) ++ ['-'] = itemCommentBody msg ++ ['-'] := by simpa using hp
        exact List.append_cancel_right this
      apply hwf.2
      rw [← e]; simp
    · exact hwf.1 hin
  have := Reads.comment hd hno (reads_nl (reads_nl hs))
  have e1 : "<!--\n".toList = ['<', '!', '-', '-', '\n'] := by decide +kernel
  have e2 : "\t-->\n\n".toList = ['\t', '-', '-', '>', '\n', '\n'] := by decide +kernel
  rw [e1, e2]
  unfold itemCommentBody at this
  simpa using this

theorem document_of {body w : Str} {root : Node} (hw : ∀ c ∈ w, c = ' ' ∨ c = '\t' ∨ c = '\n')
    (h : Reads body (w.map .chr ++ [root, nl])) :
    ReadsDocument ("<?xml version=\"1.0\" encoding=\"UTF-8\"?>\n".toList ++ body) root := by
  have e : "<?xml version=\"1.0\" encoding=\"UTF-8\"?>\n".toList =
      "<?xml version=\"1.0\" encoding=\"UTF-8\"?>".toList ++ ['\n'] := by decide +kernel
  rw [e]
  generalize hd : "<?xml version=\"1.0\" encoding=\"UTF-8\"?>".toList = d
  refine ⟨d, '\n' :: body, by rw [List.append_assoc]; rfl, .inr hd.symm, '\n' :: w, ['\n'], ?_, reads_nl h⟩
  intro c hc
  simp only [List.cons_append, List.mem_cons, List.mem_append, List.not_mem_nil, or_false] at hc
  rcases hc with rfl | hc | rfl
  · simp
  · exact hw c hc
  · simp

/-- **C77.** The file written for an item is a well-formed document.  An XML processor reports exactly
one tree for it: the item's own elements, attributes and texts, with the response declarations and then
the outcome declarations in the order of their identifiers, and line breaks for layout.  This holds for
every item whose texts and attributes are within the guards of `Spec.ItemXml`. -/
theorem item_document_partial (noComment : Bool) (msg : Str) (it : Item) (h : ItemOk it)
    (hm : noComment = false → TextOk msg) :
    ∃ responses outcomes : List Decl,
      responses.Perm (it.variables.filter (fun d => !d.outcome)) ∧ InOrder responses ∧
      outcomes.Perm (it.variables.filter (fun d => d.outcome)) ∧ InOrder outcomes ∧
      ReadsDocument (writeItemFile noComment msg it) (itemTree it responses outcomes) ∧
      ∀ n as ks, ReadsDocument (writeItemFile noComment msg it) (.elem n as ks) →
        Node.elem n as ks = itemTree it responses outcomes := by
  refine ⟨(sortDecls it.variables).filter (fun d => !d.outcome), (sortDecls it.variables).filter (fun d => d.outcome),
    (perm_sortDecls _).filter _, (inOrder_sort _).filter _, (perm_sortDecls _).filter _, (inOrder_sort _).filter _, ?_⟩
  have hread : ReadsDocument (writeItemFile noComment msg it)
      (itemTree it ((sortDecls it.variables).filter (fun d => !d.outcome))
        ((sortDecls it.variables).filter (fun d => d.outcome))) := by
    have hi := reads_writeItem it h
    generalize itemTree it ((sortDecls it.variables).filter (fun d => !d.outcome))
        ((sortDecls it.variables).filter (fun d => d.outcome)) = tree at hi
    unfold writeItemFile
    rw [List.append_assoc]
    generalize writeItem it = text at hi
    cases noComment with
    | true =>
      have := document_of (w := []) (by simp) hi
      rw [if_pos rfl, List.nil_append]
      exact this
    | false =>
      have := document_of (w := ['\n', '\n']) (by simp) (reads_comment (hm rfl) hi)
      rw [if_neg (by decide)]
      exact this
  refine ⟨hread, ?_⟩
  intro n as ks h'
  generalize htree : itemTree it ((sortDecls it.variables).filter (fun d => !d.outcome))
      ((sortDecls it.variables).filter (fun d => d.outcome)) = tree at hread
  have : ∃ n' as' ks', tree = .elem n' as' ks' := by
    rw [← htree, itemTree]; exact ⟨_, _, _, rfl⟩
  obtain ⟨n', as', ks', rfl⟩ := this
  exact document_unique h' hread

/-! ### The text of the body -/

theorem xmlTexts_append (a b : List Node) : xmlTexts (a ++ b) = xmlTexts a ++ xmlTexts b := by
  induction a with
  | nil => simp [xmlTexts]
  | cons n ns ih => simp [xmlTexts, ih]

theorem xmlTexts_chars (s : Str) : xmlTexts (chars s) = s := by
  induction s with
  | nil => rfl
  | cons c t ih =>
    have : chars (c :: t) = .chr c :: chars t := rfl
    rw [this, xmlTexts, xmlText, ih]; rfl

theorem unbroken_append (a b : Str) : unbroken (a ++ b) = unbroken a ++ unbroken b := List.filter_append ..

theorem unbroken_nl (s : Str) : unbroken ('\n' :: s) = unbroken s := by simp [unbroken]

mutual
theorem markup_text (e : Elt) : unbroken (xmlTexts (markup e)) = unbroken (eltText e) := by
  cases e <;> rw [markup.eq_def, eltText.eq_def] <;>
    simp only [-String.reduceToList, xmlTexts, xmlText, nl, xmlTexts_append, unbroken_append, List.append_assoc,
      List.nil_append, List.append_nil, List.cons_append, unbroken_nl, xmlTexts_chars, markups_text, markup_text]
  all_goals simp [unbroken]
theorem markups_text (es : List Elt) : unbroken (xmlTexts (markups es)) = unbroken (eltsText es) := by
  cases es with
  | nil => rfl
  | cons e es =>
    rw [markups, eltsText, xmlTexts_append, unbroken_append, unbroken_append, markup_text e, markups_text es]
end

/-- **C77.** Whatever an XML processor reports for the written blocks has the texts of the blocks, in
order, apart from line breaks. -/
theorem body_text (es : List Elt) (h : EltsOk es) (ns : List Node) (hr : Reads (writeElts es) ns) :
    unbroken (xmlTexts ns) = unbroken (eltsText es) := by
  rw [reads_unique hr (reads_writeElts es h)]
  exact markups_text es

/-! ## A case -/

/-- A checker for `AttOk`, `RawOk` and `TextOk` on plain texts. -/
def plainChar (c : Char) : Bool := decide (32 ≤ c.toNat ∧ c.toNat ≤ 126) && !(c == '"' || c == '<' || c == '&')

theorem rawOk_plain {s : Str} (h : s.all plainChar = true) : RawOk s := by
  rw [List.all_eq_true] at h
  have key : ∀ c ∈ s, (32 ≤ c.toNat ∧ c.toNat ≤ 126) ∧ c ≠ '"' ∧ c ≠ '<' ∧ c ≠ '&' := by
    intro c hc
    have := h c hc
    simp only [plainChar, Bool.and_eq_true, decide_eq_true_eq, Bool.not_eq_true', Bool.or_eq_false_iff,
      beq_eq_false_iff_ne] at this
    exact ⟨this.1, this.2.1.1, this.2.1.2, this.2.2⟩
  refine ⟨?_, ?_, ?_⟩
  · intro c hc
    obtain ⟨⟨k1, k2⟩, k3, k4, k5⟩ := key c hc
    refine ⟨?_, ?_, ?_, ?_, k3⟩
    · unfold XmlChar; simp only; omega
    · rintro rfl; simp at k1
    · rintro rfl; simp at k1
    · rintro rfl; simp at k1
  · intro hc; exact (key _ hc).2.2.1 rfl
  · intro hc; exact (key _ hc).2.2.2 rfl

theorem textOk_of_attOk {s : Str} (h : AttOk s) : TextOk s := fun c hc => ⟨(h c hc).1, (h c hc).2.1⟩

theorem optOk_none (P : Str → Prop) : OptOk P none := by intro s h; simp at h

theorem bodyOk_none : BodyOk {} := ⟨optOk_none _, optOk_none _, optOk_none _, optOk_none _⟩

/-- A multiple choice item. -/
def sampleItem : Item :=
  { identifier := "q1".toList, title := "Sums & more".toList, language := some "en".toList
    variables := [{ outcome := true, identifier := "SCORE".toList, cardinality := "single".toList, baseType := "float".toList,
                    default := some { value := "0".toList } },
                  { outcome := false, identifier := "RESPONSE".toList, cardinality := "single".toList,
                    baseType := "identifier".toList }]
    itemBody := some ({}, [.p {} [.text "What is < 1 + 1?".toList],
      .choiceInteraction "RESPONSE".toList {} true 1 [.prompt [.text "Choose".toList]]
        [.simpleChoice {} "A".toList none [.text "1".toList], .simpleChoice {} "B".toList (some true) [.text "2".toList]]])
    responseProcessing := some [.condition
      (.binary "match".toList (.variable "RESPONSE".toList) (.baseValue "identifier".toList "B".toList))
      [.setOutcome "SCORE".toList (.baseValue "float".toList "1".toList)] [] []]
    modalFeedback := [{ outcomeIdentifier := "FEEDBACK".toList, identifier := "ok".toList, showHide := "show".toList,
                        kids := [.text "Well done".toList] }] }

theorem attOk_visible {s : Str} (h : s.all (fun c => decide (32 ≤ c.toNat ∧ c.toNat ≤ 126 ∧ c ≠ '"')) = true) : AttOk s := by
  rw [List.all_eq_true] at h
  intro c hc
  obtain ⟨k1, k2, k3⟩ := of_decide_eq_true (h c hc)
  refine ⟨?_, ?_, ?_, ?_, k3⟩
  · unfold XmlChar; simp only; omega
  · rintro rfl; simp at k1
  · rintro rfl; simp at k1
  · rintro rfl; simp at k1

theorem attOk_amp : AttOk "Sums & more".toList := attOk_visible (by decide +kernel)

theorem textOk_lt : TextOk "What is < 1 + 1?".toList := textOk_of_attOk (attOk_visible (by decide +kernel))

theorem sampleItem_ok : ItemOk sampleItem := by
  have raw : ∀ s : String, s.toList.all plainChar = true → RawOk s.toList := fun s h => rawOk_plain h
  have att : ∀ s : String, s.toList.all plainChar = true → AttOk s.toList := fun s h => (rawOk_plain h).1
  have txt : ∀ s : String, s.toList.all plainChar = true → TextOk s.toList := fun s h => textOk_of_attOk (rawOk_plain h).1
  refine ⟨att "q1" (by decide +kernel), attOk_amp, optOk_none _, ?_, optOk_none _, optOk_none _, ?_, ?_, ?_, ?_⟩
  · intro s h
    have : s = "en".toList := by unfold sampleItem at h; injection h with h; exact h.symm
    subst this
    exact att "en" (by decide +kernel)
  · intro d hd
    unfold sampleItem at hd
    simp only [-String.reduceToList, List.mem_cons, List.not_mem_nil, or_false] at hd
    rcases hd with rfl | rfl
    · refine ⟨raw "SCORE" (by decide +kernel), raw "single" (by decide +kernel), raw "float" (by decide +kernel),
        optOk_none _, ?_, ?_⟩
      · intro v hv
        have : v = { value := "0".toList } := by injection hv with hv; exact hv.symm
        subst this
        exact ⟨txt "0" (by decide +kernel), optOk_none _⟩
      · intro m hm; cases hm
    · refine ⟨raw "RESPONSE" (by decide +kernel), raw "single" (by decide +kernel), raw "identifier" (by decide +kernel),
        optOk_none _, ?_, ?_⟩
      · intro v hv; cases hv
      · intro m hm; cases hm
  · intro b blocks h
    unfold sampleItem at h
    injection h with h
    injection h with h1 h2
    subst h1 h2
    refine ⟨bodyOk_none, ?_⟩
    simp only [-String.reduceToList, EltsOk, EltOk, and_true]
    exact ⟨⟨bodyOk_none, textOk_lt⟩, raw "RESPONSE" (by decide +kernel), bodyOk_none, txt "Choose" (by decide +kernel),
      ⟨bodyOk_none, att "A" (by decide +kernel), txt "1" (by decide +kernel)⟩,
      bodyOk_none, att "B" (by decide +kernel), txt "2" (by decide +kernel)⟩
  · intro rules h
    unfold sampleItem at h
    injection h with h
    subst h
    simp only [-String.reduceToList, RulesOk, RuleOk, ExprOk, BranchesOk, ElsesOk, and_true]
    exact ⟨⟨asciiName_name (by decide +kernel), att "RESPONSE" (by decide +kernel), att "identifier" (by decide +kernel),
      txt "B" (by decide +kernel)⟩, att "SCORE" (by decide +kernel), att "float" (by decide +kernel), txt "1" (by decide +kernel)⟩
  · intro m hm
    unfold sampleItem at hm
    simp only [-String.reduceToList, List.mem_cons, List.not_mem_nil, or_false] at hm
    subst hm
    refine ⟨att "FEEDBACK" (by decide +kernel), att "show" (by decide +kernel), att "ok" (by decide +kernel), rfl, ?_⟩
    simp only [-String.reduceToList, EltsOk, EltOk, and_true]
    exact txt "Well done" (by decide +kernel)

example : ∃ responses outcomes : List Decl,
    ReadsDocument (writeItemFile false "Warning: <a> -- b".toList sampleItem) (itemTree sampleItem responses outcomes) := by
  have hmsg : TextOk "Warning: <a> -- b".toList := textOk_of_attOk (attOk_visible (by decide +kernel))
  obtain ⟨rs, os, -, -, -, -, h, -⟩ := item_document_partial false _ sampleItem sampleItem_ok (fun _ => hmsg)
  exact ⟨rs, os, h⟩

/-! ## What is lost or read differently -/

/-- Two different items with the same file: a double quote in a title ends the attribute. -/
theorem item_title_injects :
    ∃ it it' : Item, it.title ≠ it'.title ∧ it.label ≠ it'.label ∧
      ∀ noComment msg, writeItemFile noComment msg it = writeItemFile noComment msg it' := by
  refine ⟨{ identifier := "q".toList, title := "x\"\n label=\"y".toList },
    { identifier := "q".toList, title := "x".toList, label := some "y".toList }, by decide +kernel, by decide +kernel, ?_⟩
  intro noComment msg
  have e : writeItem { identifier := "q".toList, title := "x\"\n label=\"y".toList } =
      writeItem { identifier := "q".toList, title := "x".toList, label := some "y".toList } := by decide +kernel
  unfold writeItemFile
  rw [e]

/-- The title of a feedback message is never written. -/
theorem feedback_title_lost (m : Feedback) (t : Option Str) : writeFeedback { m with title := t } = writeFeedback m := rfl

/-- The identifier, class, language and label of an image and of a line break are never written. -/
theorem image_attributes_lost (b b' : Body) (src : Option Str) (alt : Str) (longdesc : Option Str) (w h : Option Int) :
    writeElt (.img b src alt longdesc w h) = writeElt (.img b' src alt longdesc w h) ∧
      writeElt (.br b) = writeElt (.br b') := by
  constructor <;> rfl

/-- The height of an image is lost when it has no width. -/
theorem image_height_lost (b : Body) (src : Option Str) (alt : Str) (longdesc : Option Str) (h h' : Option Int) :
    writeElt (.img b src alt longdesc none h) = writeElt (.img b src alt longdesc none h') := rfl

/-- An image with a width only is read with the height `None`. -/
theorem image_height_none :
    Reads (writeElt (.img {} none "".toList none (some 5) none))
      [.elem "img".toList (given [("alt", some []), ("width", some "5".toList), ("height", some "None".toList)]) []] := by
  have plain : ∀ head n v : String, headOf head.toList n.toList = true → v.toList.all plainChar = true →
      Attrs (head.toList ++ (v.toList ++ ['"'])) (given [(n, some v.toList)]) :=
    fun head n v h hv => attrs_raw head n h (rawOk_plain hv)
  have ha := attrs_cons (plain " alt=\"" "alt" "" (by decide +kernel) (by decide +kernel))
    (attrs_cons (plain " width=\"" "width" "5" (by decide +kernel) (by decide +kernel))
      (plain " height=\"" "height" "None" (by decide +kernel) (by decide +kernel)))
  have := reads_single "<img" "img" [] (by decide +kernel) ha (by simp)
  have e : writeElt (.img {} none "".toList none (some 5) none) = "<img".toList ++
      ((" alt=\"".toList ++ ("".toList ++ ['"']) ++ (" width=\"".toList ++ ("5".toList ++ ['"']) ++
        (" height=\"".toList ++ ("None".toList ++ ['"'])))) ++ "/>".toList) := by decide +kernel
  rw [e]
  exact this

/-- An unlimited number of choices is not written for a hotspot interaction, although it is for a
choice interaction; the default an XML processor supplies is one choice. -/
theorem hotspot_unlimited_lost (resp : Str) (b : Body) (graphic : Elt) :
    writeElt (.hotspot resp b 0 [] graphic []) =
      "\n<hotspotInteraction".toList ++ interactionAttrs resp ++ bodyAttrs b ++ ">".toList ++ writeElt graphic ++
        "</hotspotInteraction>".toList := by
  rw [writeElt.eq_def]
  simp only [-String.reduceToList, writeElts, optInt, List.append_nil, if_true]

/-- A normal maximum of zero is never written. -/
theorem normal_maximum_zero_lost (d : Decl) (t : Str) :
    writeOutcomeDecl { d with normalMaximum := some ⟨t, true⟩ } = writeOutcomeDecl { d with normalMaximum := none } := rfl

/-- A line break in an attribute is read as a space. -/
theorem attribute_break_lost : AttVal (xmlString "a\nb".toList) "a b".toList := by
  have e : xmlString "a\nb".toList = ['a', '\n', 'b'] := by decide +kernel
  have e' : "a b".toList = ['a', ' ', 'b'] := by decide +kernel
  rw [e, e']
  refine .chr 'a' (by simp [XmlChar]) (by decide) (by decide) (by decide) (by decide) (by decide) (by decide) ?_
  refine .space '\n' (.inr rfl) ?_
  exact .chr 'b' (by simp [XmlChar]) (by decide) (by decide) (by decide) (by decide) (by decide) (by decide) .nil

/-- The coordinates of an area in a condition are read with spaces between them, not commas. -/
theorem inside_spaces (e : XExpr) (shape : Str) (coords : List Int) (h : ExprOk e) (hs : AttOk shape) :
    Reads (writeExpr (.inside e shape coords))
      [.elem "inside".toList (given [("shape", some shape), ("coords", some (separated ' ' (coords.map intText)))])
        [exprTree e]] := by
  have e1 : "<inside shape=\"".toList = "<inside".toList ++ " shape=\"".toList := by decide +kernel
  have e2 : join ' ' (coords.map strInt) = separated ' ' (coords.map intText) := by
    rw [join_separated]
    congr 1
    exact List.map_congr_left (fun n _ => strInt_intText n)
  have hraw : RawOk (separated ' ' (coords.map intText)) := by
    refine rawOk_separated (rawOk_plain (by decide +kernel)) ?_
    intro s hs
    obtain ⟨n, -, rfl⟩ := List.mem_map.mp hs
    exact rawOk_intText n
  have ha := attrs_cons (attrs_esc " shape=\"" "shape" (by decide +kernel) hs)
    (attrs_raw " coords=\"" "coords" (by decide +kernel) hraw)
  have := reads_tagged "<inside" "</inside>" "inside" [] [] (by decide +kernel) ha (by simp) (reads_writeExpr e h)
  rw [writeExpr.eq_def]; opened
  rw [e1, e2, quoteGt]
  shaped this

/-- A word with an emphasised part is read with a line break in it. -/
theorem inline_breaks_word :
    ∃ es, EltsOk es ∧ eltsText es = "unbelievable".toList ∧
      ∀ ns, Reads (writeElts es) ns → xmlTexts ns = "un\nbelievable".toList := by
  have txt : ∀ s : String, s.toList.all plainChar = true → TextOk s.toList := fun s h => textOk_of_attOk (rawOk_plain h).1
  have hok : EltsOk [.text "un".toList, .inline "b".toList {} [.text "believ".toList], .text "able".toList] := by
    simp only [-String.reduceToList, EltsOk, EltOk, and_true]
    exact ⟨txt "un" (by decide +kernel), ⟨asciiName_name (by decide +kernel), bodyOk_none, txt "believ" (by decide +kernel)⟩,
      txt "able" (by decide +kernel)⟩
  refine ⟨_, hok, by decide +kernel, ?_⟩
  intro ns hr
  rw [reads_unique hr (reads_writeElts _ hok)]
  decide +kernel

end Verif.Props
