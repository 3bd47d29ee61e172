import Verif.Lemmas.ItemXml

/-!
# Elements, expressions and rules are written as well-formed markup that carries their content
-/

set_option linter.unusedVariables false

namespace Verif.Props

open Verif Verif.Py Verif.XmlUtils Verif.ItemXml Verif.Spec

theorem reads_name_nl {n a k : Str} {l : List (String × Option Str)} {ks : List Node}
    (hn : XmlName n) (ha : Attrs a (given l)) (hd : (l.map Prod.fst).Nodup) (hk : Reads k ks) :
    Reads ("\n<".toList ++ (n ++ (a ++ (">".toList ++ (k ++ ("</".toList ++ (n ++ ">".toList)))))))
      [nl, .elem n (given l) ks] := by
  have := reads_nl (reads_named hn ha hd hk)
  rw [nlOpen]
  exact this

mutual
theorem reads_writeElt (e : Elt) (h : EltOk e) : Reads (writeElt e) (markup e) := by
  cases e with
  | text s => rw [writeElt.eq_def, markup.eq_def]; exact reads_xmlString h
  | br b =>
    rw [writeElt.eq_def, markup.eq_def]; opened
    rw [EltOk] at h
    rw [given_noBody h]
    have e : "<br/>\n".toList = "<br".toList ++ ([] ++ "/>".toList) ++ ['\n'] := by decide +kernel
    have := reads_append (reads_single "<br" "br" [] (l := []) (by decide +kernel) .nil (by simp)) (reads_nl .nil)
    rw [e]
    exact this
  | img b src alt longdesc width height =>
    rw [EltOk] at h
    obtain ⟨h1, h2, h3, h4, h5⟩ := h
    rw [writeElt.eq_def, markup.eq_def]; opened; rw [given_append, given_append, given_noBody h1, List.nil_append, ← given_append]
    have ha := attrs_cons (optAttr_attrs " src=\"" "src" (by decide +kernel) h2)
      (attrs_cons (attrs_esc " alt=\"" "alt" (by decide +kernel) h3)
        (attrs_cons (optAttr_attrs " longdesc=\"" "longdesc" (by decide +kernel) h4) (sizeAttrs_attrs h5)))
    have := reads_single "<img" "img" [] (by decide +kernel) ha (by simp [sizeGiven])
    shaped this
  | object data type width height =>
    rw [EltOk] at h
    obtain ⟨h2, h3, h5⟩ := h
    rw [writeElt.eq_def, markup.eq_def]; opened
    have ha := attrs_cons (optAttr_attrs " data=\"" "data" (by decide +kernel) h2)
      (attrs_cons (optAttr_attrs " type=\"" "type" (by decide +kernel) h3) (sizeAttrs_attrs h5))
    have := reads_single "<object" "object" [] (by decide +kernel) ha (by simp [sizeGiven])
    shaped this
  | inline name b kids =>
    rw [EltOk] at h
    obtain ⟨h1, h2, h3⟩ := h
    rw [writeElt.eq_def, markup.eq_def]; opened
    have := reads_name_nl h1 (bodyAttrs_attrs h2) (by simp [bodyGiven]) (reads_writeElts kids h3)
    shaped this
  | list name b kids =>
    rw [EltOk] at h
    obtain ⟨h1, h2, h3⟩ := h
    rw [writeElt.eq_def, markup.eq_def]; opened
    have := reads_name_nl h1 (bodyAttrs_attrs h2) (by simp [bodyGiven]) (reads_writeElts kids h3)
    shaped this
  | cell name b kids =>
    rw [EltOk] at h
    obtain ⟨h1, h2, h3⟩ := h
    rw [writeElt.eq_def, markup.eq_def]; opened
    have := reads_name_nl h1 (bodyAttrs_attrs h2) (by simp [bodyGiven]) (reads_writeElts kids h3)
    shaped this
  | div b kids =>
    rw [EltOk] at h
    obtain ⟨h2, h3⟩ := h
    rw [writeElt.eq_def, markup.eq_def]; opened
    have := reads_tagged "\n<div" "</div>" "div" ['\n'] [] (by decide +kernel) (bodyAttrs_attrs h2)
      (by simp [bodyGiven]) (reads_writeElts kids h3)
    shaped this
  | blockquote b kids =>
    rw [EltOk] at h
    obtain ⟨h2, h3⟩ := h
    rw [writeElt.eq_def, markup.eq_def]; opened
    have := reads_tagged "\n<blockquote" "</blockquote>" "blockquote" ['\n'] [] (by decide +kernel) (bodyAttrs_attrs h2)
      (by simp [bodyGiven]) (reads_writeElts kids h3)
    shaped this
  | li b kids =>
    rw [EltOk] at h
    obtain ⟨h2, h3⟩ := h
    rw [writeElt.eq_def, markup.eq_def]; opened
    have := reads_tagged "\n<li" "</li>" "li" ['\n'] [] (by decide +kernel) (bodyAttrs_attrs h2)
      (by simp [bodyGiven]) (reads_writeElts kids h3)
    shaped this
  | p b kids =>
    rw [EltOk] at h
    obtain ⟨h2, h3⟩ := h
    rw [writeElt.eq_def, markup.eq_def]; opened
    have := reads_tagged "\n<p" "</p>" "p" ['\n'] [] (by decide +kernel) (bodyAttrs_attrs h2)
      (by simp [bodyGiven]) (reads_writeElts kids h3)
    shaped this
  | pre b kids =>
    rw [EltOk] at h
    obtain ⟨h2, h3⟩ := h
    rw [writeElt.eq_def, markup.eq_def]; opened
    have := reads_tagged "\n<pre" "</pre>" "pre" ['\n'] [] (by decide +kernel) (bodyAttrs_attrs h2)
      (by simp [bodyGiven]) (reads_writeElts kids h3)
    shaped this
  | tbody b kids =>
    rw [EltOk] at h
    obtain ⟨h2, h3⟩ := h
    rw [writeElt.eq_def, markup.eq_def]; opened
    have := reads_tagged "\n<tbody" "</tbody>" "tbody" ['\n'] [] (by decide +kernel) (bodyAttrs_attrs h2)
      (by simp [bodyGiven]) (reads_writeElts kids h3)
    shaped this
  | tr b kids =>
    rw [EltOk] at h
    obtain ⟨h2, h3⟩ := h
    rw [writeElt.eq_def, markup.eq_def]; opened
    have := reads_tagged "\n<tr" "</tr>" "tr" ['\n'] [] (by decide +kernel) (bodyAttrs_attrs h2)
      (by simp [bodyGiven]) (reads_writeElts kids h3)
    shaped this
  | table b summary kids =>
    rw [EltOk] at h
    obtain ⟨h1, h2, h3⟩ := h
    rw [writeElt.eq_def, markup.eq_def]; opened
    have ha := attrs_app (bodyAttrs_attrs h1) (optAttr_attrs " summary=\"" "summary" (by decide +kernel) h2)
    have := reads_tagged "\n<table" "</table>" "table" ['\n'] [] (by decide +kernel) ha
      (by simp [bodyGiven]) (reads_writeElts kids h3)
    shaped this
  | rubric b view kids =>
    rw [EltOk] at h
    obtain ⟨h1, h2, h3⟩ := h
    rw [writeElt.eq_def, markup.eq_def]; opened
    have ha := attrs_app (bodyAttrs_attrs h1) (attrs_raw " view=\"" "view" (by decide +kernel) (rawOk_views h2))
    have := reads_tagged "\n<rubricBlock" "\n</rubricBlock>" "rubricBlock" ['\n'] ['\n'] (by decide +kernel) ha
      (by simp [bodyGiven]) (reads_writeElts kids h3)
    rw [viewText_views, quoteGt]
    shaped this
  | prompt kids =>
    rw [EltOk] at h
    rw [writeElt.eq_def, markup.eq_def]; opened
    have := reads_plain "\n<prompt>" "</prompt>" "prompt" ['\n'] [] (by decide +kernel) (reads_writeElts kids h)
    shaped this
  | choiceInteraction resp b shuffle maxChoices prompt kids =>
    rw [EltOk] at h
    obtain ⟨h1, h2, h3, h4⟩ := h
    rw [writeElt.eq_def, markup.eq_def]; opened
    have ha := attrs_app (attrs_app (interactionAttrs_attrs h1) (bodyAttrs_attrs h2))
      (attrs_cons (shuffleAttr_attrs shuffle) (intAttr_attrs " maxChoices=\"" "maxChoices" (i := maxChoices) (by decide +kernel)))
    have := reads_tagged "\n<choiceInteraction" "\n</choiceInteraction>" "choiceInteraction" ['\n'] ['\n'] (by decide +kernel) ha
      (by simp [bodyGiven]) (reads_append (reads_writeElts prompt h3) (reads_writeElts kids h4))
    shaped this
  | orderInteraction resp b shuffle prompt kids =>
    rw [EltOk] at h
    obtain ⟨h1, h2, h3, h4⟩ := h
    rw [writeElt.eq_def, markup.eq_def]; opened
    have ha := attrs_app (attrs_app (interactionAttrs_attrs h1) (bodyAttrs_attrs h2))
      (shuffleAttr_attrs shuffle)
    have := reads_tagged "\n<orderInteraction" "\n</orderInteraction>" "orderInteraction" ['\n'] ['\n'] (by decide +kernel) ha
      (by simp [bodyGiven]) (reads_append (reads_writeElts prompt h3) (reads_writeElts kids h4))
    shaped this
  | associateInteraction resp b shuffle maxAssociations prompt kids =>
    rw [EltOk] at h
    obtain ⟨h1, h2, h3, h4⟩ := h
    rw [writeElt.eq_def, markup.eq_def]; opened
    have ha := attrs_app (attrs_app (interactionAttrs_attrs h1) (bodyAttrs_attrs h2))
      (attrs_cons (shuffleAttr_attrs shuffle) (intAttr_attrs " maxAssociations=\"" "maxAssociations" (i := maxAssociations) (by decide +kernel)))
    have := reads_tagged "\n<associateInteraction" "\n</associateInteraction>" "associateInteraction" ['\n'] ['\n'] (by decide +kernel) ha
      (by simp [bodyGiven]) (reads_append (reads_writeElts prompt h3) (reads_writeElts kids h4))
    shaped this
  | simpleChoice b identifier fixed kids =>
    rw [EltOk] at h
    obtain ⟨h1, h2, h3⟩ := h
    rw [writeElt.eq_def, markup.eq_def]; opened
    have ha := attrs_app (bodyAttrs_attrs h1) (choiceAttrs_attrs (f := fixed) h2)
    have := reads_tagged "\n<simpleChoice" "</simpleChoice>" "simpleChoice" ['\n'] [] (by decide +kernel) ha
      (by simp [bodyGiven]) (reads_writeElts kids h3)
    shaped this
  | simpleAssociableChoice identifier fixed matchMax matchGroup kids =>
    rw [EltOk] at h
    obtain ⟨h1, h2, h3⟩ := h
    rw [writeElt.eq_def, markup.eq_def]; opened
    have := reads_tagged "\n<simpleAssociableChoice" "</simpleAssociableChoice>" "simpleAssociableChoice" ['\n'] []
      (by decide +kernel) (associableAttrs_attrs (f := fixed) (m := matchMax) h1 h2) (by simp) (reads_writeElts kids h3)
    shaped this
  | extendedText resp b a maxStrings prompt =>
    rw [EltOk] at h
    obtain ⟨h1, h2, h3, h4⟩ := h
    have ha := attrs_app (attrs_app (attrs_app (interactionAttrs_attrs h1) (bodyAttrs_attrs h2)) (stringAttrs_attrs h3))
      (optInt_attrs " maxStrings=\"" "maxStrings" (o := maxStrings) (by decide +kernel))
    rcases prompt with _ | ⟨q, r⟩
    · rw [writeElt.eq_def, markup.eq_def]; opened; rw [markups]
      have := reads_single "\n<extendedTextInteraction" "extendedTextInteraction" ['\n'] (by decide +kernel) ha
        (by simp [bodyGiven, stringGiven])
      shaped this
    · rw [writeElt.eq_def, markup.eq_def]; opened; rw [markups]
      rw [EltsOk] at h4
      have := reads_tagged "\n<extendedTextInteraction" "</extendedTextInteraction>" "extendedTextInteraction" ['\n'] []
        (by decide +kernel) ha (by simp [bodyGiven, stringGiven])
        (reads_append (reads_writeElt q h4.1) (reads_writeElts r h4.2))
      shaped this
  | textEntry resp b a =>
    rw [EltOk] at h
    obtain ⟨h1, h2, h3⟩ := h
    rw [writeElt.eq_def, markup.eq_def]; opened
    have ha := attrs_app (attrs_app (interactionAttrs_attrs h1) (bodyAttrs_attrs h2)) (stringAttrs_attrs h3)
    have := reads_single "\n<textEntryInteraction" "textEntryInteraction" ['\n'] (by decide +kernel) ha
      (by simp [bodyGiven, stringGiven])
    shaped this
  | hotspot resp b maxChoices prompt graphic kids =>
    rw [EltOk] at h
    obtain ⟨h1, h2, h3, h4, h5, h6⟩ := h
    rw [writeElt.eq_def, markup.eq_def]; opened; rw [← presentInt_some h3]
    have ha := attrs_app (attrs_app (interactionAttrs_attrs h1) (bodyAttrs_attrs h2))
      (optInt_attrs " maxChoices=\"" "maxChoices" (o := some maxChoices) (by decide +kernel))
    have := reads_tagged "\n<hotspotInteraction" "</hotspotInteraction>" "hotspotInteraction" ['\n'] []
      (by decide +kernel) ha (by simp [bodyGiven])
      (reads_append (reads_append (reads_writeElts prompt h4) (reads_writeElt graphic h5)) (reads_writeElts kids h6))
    shaped this
  | selectPoint resp b maxChoices prompt graphic =>
    rw [EltOk] at h
    obtain ⟨h1, h2, h3, h4, h5⟩ := h
    rw [writeElt.eq_def, markup.eq_def]; opened; rw [← presentInt_some h3]
    have ha := attrs_app (attrs_app (interactionAttrs_attrs h1) (bodyAttrs_attrs h2))
      (optInt_attrs " maxChoices=\"" "maxChoices" (o := some maxChoices) (by decide +kernel))
    have := reads_tagged "\n<selectPointInteraction" "</selectPointInteraction>" "selectPointInteraction" ['\n'] []
      (by decide +kernel) ha (by simp [bodyGiven])
      (reads_append (reads_writeElts prompt h4) (reads_writeElt graphic h5))
    shaped this
  | graphicOrder resp b graphic kids =>
    rw [EltOk] at h
    obtain ⟨h1, h2, h5, h6⟩ := h
    rw [writeElt.eq_def, markup.eq_def]; opened
    have ha := attrs_app (interactionAttrs_attrs h1) (bodyAttrs_attrs h2)
    have := reads_tagged "\n<graphicOrderInteraction" "</graphicOrderInteraction>" "graphicOrderInteraction" ['\n'] []
      (by decide +kernel) ha (by simp [bodyGiven])
      (reads_append (reads_writeElt graphic h5) (reads_writeElts kids h6))
    shaped this
  | hotspotChoice identifier fixed shape coords label =>
    rw [EltOk] at h
    obtain ⟨h1, h2, h3⟩ := h
    rw [writeElt.eq_def, markup.eq_def]; opened
    have ha := attrs_app (choiceAttrs_attrs (f := fixed) h1) (hotspotAttrs_attrs (coords := coords) h2 h3)
    have := reads_single "\n<hotspotChoice" "hotspotChoice" ['\n'] (by decide +kernel) ha (by simp)
    shaped this
  | slider resp b lower upper step stepLabel orientation reverse prompt =>
    rw [EltOk] at h
    obtain ⟨h1, h2, h3, h4, h5, h6, h7⟩ := h
    have ha := attrs_app (attrs_app (interactionAttrs_attrs h1) (bodyAttrs_attrs h2))
      (sliderAttrs_attrs (sl := stepLabel) (r := reverse) h3 h4 h5 h6)
    rcases prompt with _ | ⟨q, r⟩
    · rw [writeElt.eq_def, markup.eq_def]; opened; rw [markups]
      have := reads_single "\n<sliderInteraction" "sliderInteraction" ['\n'] (by decide +kernel) ha
        (by simp [bodyGiven])
      shaped this
    · rw [writeElt.eq_def, markup.eq_def]; opened; rw [markups]
      rw [EltsOk] at h7
      have := reads_tagged "\n<sliderInteraction" "</sliderInteraction>" "sliderInteraction" ['\n'] []
        (by decide +kernel) ha (by simp [bodyGiven])
        (reads_append (reads_writeElt q h7.1) (reads_writeElts r h7.2))
      shaped this
theorem reads_writeElts (es : List Elt) (h : EltsOk es) : Reads (writeElts es) (markups es) := by
  cases es with
  | nil => rw [writeElts, markups]; exact .nil
  | cons e es =>
    rw [EltsOk] at h
    rw [writeElts, markups]
    exact reads_append (reads_writeElt e h.1) (reads_writeElts es h.2)
end

/-! ## Expressions and rules -/

mutual
theorem reads_writeExpr (e : XExpr) (h : ExprOk e) : Reads (writeExpr e) [exprTree e] := by
  cases e with
  | binary name l r =>
    rw [ExprOk] at h
    obtain ⟨h1, h2, h3⟩ := h
    rw [writeExpr.eq_def, exprTree.eq_def]; opened
    have := reads_plain_named h1 (reads_append (reads_writeExpr l h2) (reads_writeExpr r h3))
    shaped this
  | multi name args =>
    rw [ExprOk] at h
    obtain ⟨h1, h2⟩ := h
    rw [writeExpr.eq_def, exprTree.eq_def]; opened
    have := reads_plain_named h1 (reads_writeExprs args h2)
    shaped this
  | custom opClass args =>
    rw [ExprOk] at h
    obtain ⟨h1, h2⟩ := h
    rw [writeExpr.eq_def, exprTree.eq_def]; opened
    have := reads_tagged "<customOperator" "</customOperator>" "customOperator" [] [] (by decide +kernel)
      (optAttr_attrs " class=\"" "class" (by decide +kernel) h1) (by simp) (reads_writeExprs args h2)
    shaped this
  | not e =>
    rw [ExprOk] at h
    rw [writeExpr.eq_def, exprTree.eq_def]; opened
    have := reads_plain "<not>" "</not>" "not" [] [] (by decide +kernel) (reads_writeExpr e h)
    shaped this
  | stringMatch l r cs sub =>
    rw [ExprOk] at h
    obtain ⟨h1, h2⟩ := h
    rw [writeExpr.eq_def, exprTree.eq_def]; opened
    have ha := attrs_cons (attrs_raw "  caseSensitive=\"" "caseSensitive" (by decide +kernel) (rawOk_truth cs))
      (attrs_raw " substring=\"" "substring" (by decide +kernel) (rawOk_truth sub))
    have := reads_tagged "<stringMatch" "</stringMatch>" "stringMatch" [] [] (by decide +kernel) ha (by simp)
      (reads_append (reads_writeExpr l h1) (reads_writeExpr r h2))
    have e : "<stringMatch ".toList ++ " caseSensitive=\"".toList = "<stringMatch".toList ++ "  caseSensitive=\"".toList := by
      decide +kernel
    rw [e, boolText_truth, boolText_truth]
    shaped this
  | «variable» i =>
    rw [ExprOk] at h
    rw [writeExpr.eq_def, exprTree.eq_def]; opened
    have e : "<variable identifier=\"".toList = "<variable".toList ++ " identifier=\"".toList := by decide +kernel
    have := reads_single "<variable" "variable" [] (by decide +kernel)
      (attrs_esc " identifier=\"" "identifier" (by decide +kernel) h) (by simp)
    rw [e, quoteEnd]
    shaped this
  | index e n =>
    rw [ExprOk] at h
    rw [writeExpr.eq_def, exprTree.eq_def]; opened
    have e' : "<index n=\"".toList = "<index".toList ++ " n=\"".toList := by decide +kernel
    have := reads_tagged "<index" "</index>" "index" [] [] (by decide +kernel)
      (intAttr_attrs " n=\"" "n" (i := n) (by decide +kernel)) (by simp) (reads_writeExpr e h)
    rw [e', quoteGt]
    shaped this
  | baseValue t v =>
    rw [ExprOk] at h
    rw [writeExpr.eq_def, exprTree.eq_def]; opened
    have e' : "<baseValue baseType=\"".toList = "<baseValue".toList ++ " baseType=\"".toList := by decide +kernel
    have := reads_tagged "<baseValue" "</baseValue>" "baseValue" [] [] (by decide +kernel)
      (attrs_esc " baseType=\"" "baseType" (by decide +kernel) h.1) (by simp) (reads_xmlString h.2)
    rw [e', quoteGt]
    shaped this
  | isNull e =>
    rw [ExprOk] at h
    rw [writeExpr.eq_def, exprTree.eq_def]; opened
    have := reads_plain "<isNull>" "</isNull>" "isNull" [] [] (by decide +kernel) (reads_writeExpr e h)
    shaped this
  | null =>
    rw [writeExpr.eq_def, exprTree.eq_def]; opened
    have e' : "<null/>".toList = "<null".toList ++ ([] ++ "/>".toList) := by decide +kernel
    have := reads_single "<null" "null" [] (l := []) (by decide +kernel) .nil (by simp)
    rw [e']
    exact this
  | inside e shape coords =>
    rw [ExprOk] at h
    obtain ⟨h1, h2, h3⟩ := h
    rw [writeExpr.eq_def, exprTree.eq_def]; opened
    have e1 : "<inside shape=\"".toList = "<inside".toList ++ " shape=\"".toList := by decide +kernel
    have e2 : join ' ' (coords.map strInt) = separated ',' (coords.map intText) := by
      rw [join_separated]
      rcases coords with _ | ⟨n, _ | ⟨m, t⟩⟩
      · rfl
      · exact strInt_intText n
      · simp at h3
    have ha := attrs_cons (attrs_esc " shape=\"" "shape" (by decide +kernel) h2)
      (attrs_raw " coords=\"" "coords" (by decide +kernel) (rawOk_coords coords))
    have := reads_tagged "<inside" "</inside>" "inside" [] [] (by decide +kernel) ha (by simp) (reads_writeExpr e h1)
    rw [e1, e2, quoteGt]
    shaped this
theorem reads_writeExprs (es : List XExpr) (h : ExprsOk es) : Reads (writeExprs es) (exprTrees es) := by
  cases es with
  | nil => rw [writeExprs, exprTrees]; exact .nil
  | cons e es =>
    rw [ExprsOk] at h
    rw [writeExprs, exprTrees]
    exact reads_append (reads_writeExpr e h.1) (reads_writeExprs es h.2)
end

mutual
theorem reads_writeRule (r : Rule) (h : RuleOk r) : Reads (writeRule r) (ruleTree r) := by
  cases r with
  | setOutcome i e =>
    rw [RuleOk] at h
    rw [writeRule.eq_def, ruleTree.eq_def]; opened
    have e' : "\n<setOutcomeValue identifier=\"".toList = "\n<setOutcomeValue".toList ++ " identifier=\"".toList := by
      decide +kernel
    have := reads_tagged "\n<setOutcomeValue" "</setOutcomeValue>" "setOutcomeValue" ['\n'] [] (by decide +kernel)
      (attrs_esc " identifier=\"" "identifier" (by decide +kernel) h.1) (by simp) (reads_writeExpr e h.2)
    rw [e', quoteGt]
    shaped this
  | condition e rules elseIfs els =>
    rw [RuleOk] at h
    obtain ⟨h1, h2, h3, h4⟩ := h
    rw [writeRule.eq_def, ruleTree.eq_def]; opened
    have hif := reads_plain "\n<responseIf>" "\n</responseIf>" "responseIf" ['\n'] ['\n'] (by decide +kernel)
      (reads_append (reads_writeExpr e h1) (reads_writeRules rules h2))
    have := reads_plain "\n<responseCondition>" "\n</responseCondition>" "responseCondition" ['\n'] ['\n']
      (by decide +kernel) (reads_append (reads_append hif (reads_writeBranches elseIfs h3)) (reads_writeElses els h4))
    shaped this
theorem reads_writeRules (rs : List Rule) (h : RulesOk rs) : Reads (writeRules rs) (ruleTrees rs) := by
  cases rs with
  | nil => rw [writeRules, ruleTrees]; exact .nil
  | cons r rs =>
    rw [RulesOk] at h
    rw [writeRules, ruleTrees]
    exact reads_append (reads_writeRule r h.1) (reads_writeRules rs h.2)
theorem reads_writeBranches (bs : List Branch) (h : BranchesOk bs) : Reads (writeBranches bs) (branchTrees bs) := by
  cases bs with
  | nil => rw [writeBranches, branchTrees]; exact .nil
  | cons b bs =>
    obtain ⟨e, rules⟩ := b
    rw [BranchesOk] at h
    obtain ⟨h1, h2, h3⟩ := h
    rw [writeBranches, branchTrees.eq_def, writeBranch.eq_def]; opened
    have hif := reads_plain "\n<responseElseIf>" "\n</responseElseIf>" "responseElseIf" ['\n'] ['\n'] (by decide +kernel)
      (reads_append (reads_writeExpr e h1) (reads_writeRules rules h2))
    have := reads_append hif (reads_writeBranches bs h3)
    shaped this
theorem reads_writeElses (es : List Else) (h : ElsesOk es) : Reads (writeElses es) (elseTrees es) := by
  cases es with
  | nil => rw [writeElses, elseTrees]; exact .nil
  | cons b bs =>
    obtain ⟨rules⟩ := b
    rw [ElsesOk] at h
    obtain ⟨h2, h3⟩ := h
    rw [writeElses, elseTrees.eq_def, writeElse.eq_def]; opened
    have hif := reads_plain "\n<responseElse>" "\n</responseElse>" "responseElse" ['\n'] ['\n'] (by decide +kernel)
      (reads_writeRules rules h2)
    have := reads_append hif (reads_writeElses bs h3)
    shaped this
end

end Verif.Props
