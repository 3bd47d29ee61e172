import Verif.Spec.Presentation
import Verif.Props.Html

/-!
# Lemmas about the migration of presentations: what is shown
-/

set_option linter.unusedVariables false

namespace Verif.Lemmas.Pres

open Verif Verif.ItemXml Verif.Pres Verif.Spec

/-! ## Results -/

theorem bind_ok {ε α β} {x : Except ε α} {f : α → Except ε β} {b : β} (h : (x >>= f) = .ok b) :
    ∃ a, x = .ok a ∧ f a = .ok b := by
  cases x with
  | error e => cases h
  | ok a => exact ⟨a, rfl, h⟩

/-! ## Lists of elements -/

theorem seenAll_flatMap (es : List Elt) : seenAll es = es.flatMap seen := by
  induction es with
  | nil => simp [seenAll]
  | cons e es ih => simp [seenAll, ih]

theorem interactionsAll_flatMap (es : List Elt) : interactionsAll es = es.flatMap interactions := by
  induction es with
  | nil => simp [interactionsAll]
  | cons e es ih => simp [interactionsAll, ih]

theorem seenAll_append (a b : List Elt) : seenAll (a ++ b) = seenAll a ++ seenAll b := by
  simp [seenAll_flatMap]

theorem interactionsAll_append (a b : List Elt) : interactionsAll (a ++ b) = interactionsAll a ++ interactionsAll b := by
  simp [interactionsAll_flatMap]

/-! ## Flows -/

mutual
theorem measure_ofNode {β} (f : Elt → List β) (hp : ∀ b ks, f (.p b ks) = ks.flatMap f)
    (hd : ∀ b ks, f (.div b ks) = ks.flatMap f) : ∀ n : Html.FNode Elt, f (ofNode n) = (pieces n).flatMap f
  | .piece _ e => by simp [ofNode, pieces]
  | .p cls ks => by simp only [ofNode, pieces, hp]; exact measure_ofNodes f hp hd ks
  | .div cls ks => by simp only [ofNode, pieces, hd]; exact measure_ofNodes f hp hd ks
theorem measure_ofNodes {β} (f : Elt → List β) (hp : ∀ b ks, f (.p b ks) = ks.flatMap f)
    (hd : ∀ b ks, f (.div b ks) = ks.flatMap f) :
    ∀ ns : List (Html.FNode Elt), (ofNode.ofNodes ns).flatMap f = (piecesL ns).flatMap f
  | [] => by simp [ofNode.ofNodes, piecesL]
  | n :: ns => by simp [ofNode.ofNodes, piecesL, measure_ofNode f hp hd n, measure_ofNodes f hp hd ns]
end

theorem map_ofNode (ns : List (Html.FNode Elt)) : ns.map ofNode = ofNode.ofNodes ns := by
  induction ns with
  | nil => rfl
  | cons n ns ih => simp [ofNode.ofNodes, ih]

theorem piecesL_map (kids : List Elt) : piecesL (kids.map fun e => Html.FNode.piece (isInline e) e) = kids := by
  induction kids with
  | nil => rfl
  | cons k ks ih => simp [piecesL, pieces, ih]

/-- Whatever is counted inside elements, a flow has as much of it as its children, in order. -/
theorem closeFlow_flatMap {β} (f : Elt → List β) (hp : ∀ b ks, f (.p b ks) = ks.flatMap f)
    (hd : ∀ b ks, f (.div b ks) = ks.flatMap f) (cls : Option Str) (level : Nat) (kids : List Elt) :
    (closeFlow cls level kids).flatMap f = kids.flatMap f := by
  unfold closeFlow
  rw [map_ofNode, measure_ofNodes f hp hd, Props.flow_content_kept, piecesL_map]

theorem seenAll_closeFlow (cls : Option Str) (level : Nat) (kids : List Elt) :
    seenAll (closeFlow cls level kids) = seenAll kids := by
  rw [seenAll_flatMap, seenAll_flatMap]
  exact closeFlow_flatMap seen (by intro b ks; simp [seen, seenAll_flatMap]) (by intro b ks; simp [seen, seenAll_flatMap]) ..

theorem interactionsAll_closeFlow (cls : Option Str) (level : Nat) (kids : List Elt) :
    interactionsAll (closeFlow cls level kids) = interactionsAll kids := by
  rw [interactionsAll_flatMap, interactionsAll_flatMap]
  exact closeFlow_flatMap interactions (by intro b ks; simp [interactions, interactionsAll_flatMap])
    (by intro b ks; simp [interactions, interactionsAll_flatMap]) ..

/-- An element that can stand in a body: a phrase or a block. -/
def Std (e : Elt) : Prop := isInline e = true ∨ isBlock e = true

theorem isBlock_group (kids : List Elt) (h : ∀ e ∈ kids, Std e) (n : Html.FNode Elt)
    (hn : n ∈ Html.group (kids.map fun e => Html.FNode.piece (isInline e) e) none) : isBlock (ofNode n) = true := by
  rcases Props.group_mem _ none (by intro ks h; cases h) n hn with ⟨hm, hi⟩ | ⟨ks, rfl, _, _⟩
  · obtain ⟨e, he, rfl⟩ := List.mem_map.1 hm
    simp only [Html.FNode.isInline] at hi
    rcases h e he with h' | h'
    · rw [h'] at hi; cases hi
    · simpa [ofNode] using h'
  · simp [ofNode, isBlock]

/-- A flow is closed into blocks. -/
theorem closeFlow_block (cls : Option Str) (level : Nat) (kids : List Elt) (h : ∀ e ∈ kids, Std e) :
    ∀ e ∈ closeFlow cls level kids, isBlock e = true := by
  intro e he
  unfold closeFlow Html.closeFlow at he
  obtain ⟨n, hn, rfl⟩ := List.mem_map.1 he
  split at hn
  · simp only [List.mem_singleton] at hn; subst hn; simp [ofNode, isBlock]
  · split at hn
    · simp only [List.mem_singleton] at hn; subst hn; simp [ofNode, isBlock]
    · split at hn
      · simp only [List.mem_singleton] at hn; subst hn; simp [ofNode, isBlock]
      · exact isBlock_group kids h n hn

theorem closeFlow_std (cls : Option Str) (level : Nat) (kids : List Elt) (h : ∀ e ∈ kids, Std e) :
    ∀ e ∈ closeFlow cls level kids, Std e := fun e he => .inr (closeFlow_block cls level kids h e he)

theorem closeFlow_ne_nil (cls : Option Str) (level : Nat) (kids : List Elt) (hl : level ≠ 0) :
    closeFlow cls level kids ≠ [] := by
  unfold closeFlow Html.closeFlow
  split
  · simp
  · split
    · simp
    · simp

/-! ## Material -/

theorem given_seen (uri : Option Str) : mediaSeen uri = if given uri then [.media (uri.getD [])] else [] := by
  rcases uri with _ | _ | _ <;> rfl

theorem seen_labelled (label lang : Option Str) (e : Elt) : seen (labelled label lang e) = seen e := by
  unfold labelled
  split <;> simp [seen, seenAll]

theorem seen_piece (hot : Bool) (p : Piece) (h : TypedPiece p) : seenAll (pieceElts hot p) = pieceSeen p := by
  cases p with
  | text => simp [pieceElts, seenAll, seen_labelled, seen, pieceSeen]
  | formatted es => rfl
  | emtext => simp [pieceElts, seenAll, seen_labelled, seen, pieceSeen]
  | emtextOther => exact absurd h (by simp [TypedPiece])
  | image type uri w h =>
    unfold pieceElts
    rcases uri with _ | _ | ⟨c, t⟩ <;> cases hot <;> simp [given, seenAll, seen, pieceSeen, mediaSeen]
  | audio type uri =>
    unfold pieceElts
    rcases uri with _ | _ | ⟨c, t⟩ <;> simp [given, seenAll, seen, pieceSeen, mediaSeen]
  | brk => rfl
  | unsupported => rfl

theorem seen_material (hot : Bool) (m : Material) (h : Mat TypedPiece m) :
    seenAll (materialElts hot m) = matSeen m := by
  unfold materialElts matSeen
  have : ∀ ps : List Piece, (∀ p ∈ ps, TypedPiece p) →
      seenAll (ps.flatMap (pieceElts hot)) = ps.flatMap pieceSeen := by
    intro ps
    induction ps with
    | nil => intro _; rfl
    | cons p ps ih =>
      intro h
      simp only [List.flatMap_cons, seenAll_append]
      rw [seen_piece hot p (h p (by simp)), ih (fun q hq => h q (by simp [hq]))]
  exact this _ h

mutual
theorem seen_inner (hot : Bool) : ∀ (level : Nat) (k : MatFlow), MatF TypedPiece k →
    seenAll (innerElts hot level k) = matFlowSeen k
  | level, .mat m, h => by simp only [innerElts, matFlowSeen]; exact seen_material hot m h
  | level, .flow cls kids, h => by
    simp only [innerElts, matFlowSeen, seenAll_closeFlow]
    exact seen_innerAll hot (level + 1) kids (by simpa [MatF] using h)
theorem seen_innerAll (hot : Bool) : ∀ (level : Nat) (ks : List MatFlow), MatFs TypedPiece ks →
    seenAll (innerEltsAll hot level ks) = matFlowsSeen ks
  | level, [], h => by simp [innerEltsAll, matFlowsSeen, seenAll]
  | level, k :: ks, h => by
    simp only [innerEltsAll, matFlowsSeen, seenAll_append]
    simp only [MatFs] at h
    rw [seen_inner hot level k h.1, seen_innerAll hot level ks h.2]
end

theorem seen_wrapped (hot : Bool) (level : Nat) (k : MatFlow) (h : MatF TypedPiece k) :
    seenAll (wrappedElts hot level k) = matFlowSeen k := by
  cases k with
  | mat m => simp only [wrappedElts, seenAll_closeFlow, matFlowSeen]; exact seen_material hot m h
  | flow cls kids => simp only [wrappedElts]; exact seen_inner hot level _ h

theorem seen_wrapped_all (hot : Bool) (level : Nat) (ks : List MatFlow) (h : MatFs TypedPiece ks) :
    seenAll (ks.flatMap (wrappedElts hot level)) = matFlowsSeen ks := by
  induction ks with
  | nil => simp [matFlowsSeen, seenAll]
  | cons k ks ih =>
    simp only [MatFs] at h
    simp [seenAll_append, matFlowsSeen, seen_wrapped hot level k h.1, ih h.2]

/-- Every element of a plain material is a phrase or a block. -/
theorem std_piece (hot : Bool) (p : Piece) (h : PlainPiece p) : ∀ e ∈ pieceElts hot p, Std e := by
  intro e he
  cases p with
  | text => simp [pieceElts, labelled] at he; subst he; split <;> simp [Std, isInline]
  | formatted es => exact (h e he).1
  | emtext => simp [pieceElts, labelled] at he; subst he; split <;> simp [Std, isInline]
  | emtextOther => simp [pieceElts] at he
  | image type uri w h =>
    simp only [pieceElts] at he
    split at he
    · split at he <;> simp at he <;> subst he <;> simp [Std, isInline]
    · simp at he
  | audio type uri =>
    simp only [pieceElts] at he
    split at he
    · simp at he; subst he; simp [Std, isInline]
    · simp at he
  | brk => simp [pieceElts] at he; subst he; simp [Std, isInline]
  | unsupported => simp [pieceElts] at he

theorem std_material (hot : Bool) (m : Material) (h : Mat PlainPiece m) : ∀ e ∈ materialElts hot m, Std e := by
  intro e he
  obtain ⟨p, hp, he⟩ := List.mem_flatMap.1 he
  exact std_piece hot p (h p hp) e he

theorem interactions_piece (hot : Bool) (p : Piece) (h : PlainPiece p) : interactionsAll (pieceElts hot p) = [] := by
  have hl : ∀ label lang (e : Elt), interactions e = [] → interactions (labelled label lang e) = [] := by
    intro label lang e h
    unfold labelled
    split
    · simp [interactions, interactionsAll, h]
    · exact h
  cases p with
  | text => simp [pieceElts, interactionsAll]; exact hl _ _ _ (by simp [interactions])
  | formatted es =>
    rw [interactionsAll_flatMap]
    simp only [pieceElts, List.flatMap_eq_nil_iff]
    exact fun e he => (h e he).2
  | emtext => simp [pieceElts, interactionsAll]; exact hl _ _ _ (by simp [interactions, interactionsAll])
  | emtextOther => rfl
  | image type uri w h =>
    simp only [pieceElts]
    split
    · split <;> simp [interactionsAll, interactions]
    · rfl
  | audio type uri =>
    simp only [pieceElts]
    split
    · simp [interactionsAll, interactions]
    · rfl
  | brk => simp [pieceElts, interactionsAll, interactions]
  | unsupported => rfl

theorem interactions_material (hot : Bool) (m : Material) (h : Mat PlainPiece m) :
    interactionsAll (materialElts hot m) = [] := by
  rw [interactionsAll_flatMap, List.flatMap_eq_nil_iff]
  intro e he
  obtain ⟨p, hp, he⟩ := List.mem_flatMap.1 he
  have := interactions_piece hot p (h p hp)
  rw [interactionsAll_flatMap, List.flatMap_eq_nil_iff] at this
  exact this e he

/-! ## Labels -/

theorem labelChildren_eq (hot : Bool) (level : Nat) (l : Label) :
    labelChildren hot level l = (labelContents l).flatMap (wrappedElts hot level) := by
  unfold labelChildren labelContents
  induction l.items with
  | nil => rfl
  | cons i is ih => cases i <;> simp [ih]

theorem wrapped_ne_nil (hot : Bool) (level : Nat) (k : MatFlow) : wrappedElts hot level k ≠ [] := by
  cases k with
  | mat m => exact closeFlow_ne_nil _ _ _ (by omega)
  | flow cls kids => exact closeFlow_ne_nil _ _ _ (by omega)

/-- What a label shows is kept in a choice, unless it has both text and other content. -/
theorem seen_labelKids (hot : Bool) (level : Nat) (l : Label) (h : LabelPure l) (hp : LabelP TypedPiece l) :
    seenAll (labelKids hot level l) = labelSeen l := by
  have hd : Names.strip (labelData l) = labelText l := rfl
  have hc : seenAll (labelChildren hot level l) = matFlowsSeen (labelContents l) := by
    rw [labelChildren_eq]; exact seen_wrapped_all hot level _ hp
  unfold labelKids labelSeen
  simp only [hd]
  rcases h with h | h
  · simp [h, hc]
  · have hk : labelChildren hot level l = [] := by rw [labelChildren_eq, h]; rfl
    simp only [h, hk, matFlowsSeen]
    by_cases ht : labelText l = []
    · simp [ht, seenAll]
    · have : (labelText l).isEmpty = false := by simpa using ht
      simp [this, ht, seenAll, seen]

/-- The element made for a label. -/
def madeOf (thing : Option LabelThing) (hot : Bool) (level : Nat) (l : Label) : Elt :=
  match closeLabel thing hot level l with
  | .ok (some (.elt e)) => e
  | _ => .text []

theorem collectLabels_ok (t : LabelThing) (hot : Bool) (level : Nat) (ls : List Label) :
    ∀ r r', collectLabels (some t) hot level ls r = .ok r' →
      (∀ l ∈ ls, closeLabel (some t) hot level l = .ok (some (.elt (madeOf (some t) hot level l)))) ∧
      r' = if ls.isEmpty then r else
        { r with labels := r.labels ++ ls.map (madeOf (some t) hot level), post := [] } := by
  induction ls with
  | nil => intro r r' h; simp only [collectLabels, Except.ok.injEq] at h; simp [h]
  | cons l ls ih =>
    intro r r' h
    simp only [collectLabels] at h
    obtain ⟨m, hm, h⟩ := bind_ok h
    match m, hm, h with
    | none, hm, _ =>
      exfalso
      unfold closeLabel at hm
      obtain ⟨a, _, hm⟩ := bind_ok hm
      cases t with
      | simple => cases hm
      | associable => cases hm
      | hotspot => obtain ⟨_, _, hm⟩ := bind_ok hm; obtain ⟨_, _, hm⟩ := bind_ok hm; cases hm
      | string => cases hm
    | some (.blank _), hm, h => cases h
    | some (.elt e), hm, h =>
      simp only at h
      obtain ⟨h1, h2⟩ := ih _ _ h
      have he : madeOf (some t) hot level l = e := by simp [madeOf, hm]
      refine ⟨?_, ?_⟩
      · intro x hx
        rcases List.mem_cons.1 hx with rfl | hx
        · rw [hm, he]
        · exact h1 x hx
      · rw [h2]
        cases ls with
        | nil => simp [RenderSt.appendLabel, he]
        | cons a as => simp [RenderSt.appendLabel, he]

theorem foldl_append (es : List Elt) : ∀ r : RenderSt, es.foldl RenderSt.append r =
    if r.labels.isEmpty then { r with pre := r.pre ++ es } else { r with post := r.post ++ es } := by
  induction es with
  | nil => intro r; simp
  | cons e es ih =>
    intro r
    simp only [List.foldl_cons, ih, RenderSt.append]
    by_cases hr : r.labels.isEmpty = true
    · simp [hr]
    · simp [hr]

theorem labelsOf_cons_mat (m : Material) (is : List RItem) : labelsOf (.mat m :: is) = labelsOf is := by simp [labelsOf]
theorem labelsOf_cons_labels (t : LabelTree) (is : List RItem) : labelsOf (.labels t :: is) = t.labels ++ labelsOf is := by
  simp [labelsOf]
theorem matsOf_cons_mat (m : Material) (is : List RItem) : matsOf (.mat m :: is) = m :: matsOf is := by simp [matsOf]
theorem matsOf_cons_labels (t : LabelTree) (is : List RItem) : matsOf (.labels t :: is) = matsOf is := by simp [matsOf]
theorem labelsOf_append (a b : List RItem) : labelsOf (a ++ b) = labelsOf a ++ labelsOf b := by simp [labelsOf]
theorem matsOf_append (a b : List RItem) : matsOf (a ++ b) = matsOf a ++ matsOf b := by simp [matsOf]

/-- The elements of the materials of a rendering. -/
def matElts (hot : Bool) (items : List RItem) : List Elt := (matsOf items).flatMap (materialElts hot)

/-- A rendering without labels collects its material. -/
theorem collect_noLabels (thing : Option LabelThing) (hot : Bool) (level : Nat) (items : List RItem) :
    ∀ r, labelsOf items = [] → collect thing hot level items r = .ok ((matElts hot items).foldl RenderSt.append r) := by
  induction items with
  | nil => intro r _; rfl
  | cons i is ih =>
    intro r h
    cases i with
    | mat m =>
      rw [labelsOf_cons_mat] at h
      simp only [collect]
      rw [ih _ h]
      simp [matElts, matsOf_cons_mat, List.foldl_append]
    | labels t =>
      rw [labelsOf_cons_labels, List.append_eq_nil_iff] at h
      simp only [collect, h.1, collectLabels]
      show collect thing hot level is r = _
      rw [ih _ h.2]
      simp [matElts, matsOf_cons_labels]

theorem collect_append (thing : Option LabelThing) (hot : Bool) (level : Nat) (a b : List RItem) :
    ∀ r, collect thing hot level (a ++ b) r = (collect thing hot level a r >>= collect thing hot level b) := by
  induction a with
  | nil => intro r; rfl
  | cons i is ih =>
    intro r
    cases i with
    | mat m => simp only [List.cons_append, collect]; exact ih _
    | labels t =>
      simp only [List.cons_append, collect]
      cases collectLabels thing hot level t.labels r with
      | error e => rfl
      | ok x => exact ih x

/-- The labels of a rendering that makes elements of them: all of them, in order. -/
theorem collect_labels (t : LabelThing) (hot : Bool) (level : Nat) (items : List RItem) :
    ∀ r r', collect (some t) hot level items r = .ok r' →
      (∀ l ∈ labelsOf items, closeLabel (some t) hot level l = .ok (some (.elt (madeOf (some t) hot level l)))) ∧
      r'.labels = r.labels ++ (labelsOf items).map (madeOf (some t) hot level) := by
  induction items with
  | nil => intro r r' h; simp only [collect, Except.ok.injEq] at h; simp [h, labelsOf]
  | cons i is ih =>
    intro r r' h
    cases i with
    | mat m =>
      simp only [collect] at h
      obtain ⟨h1, h2⟩ := ih _ _ h
      refine ⟨by rw [labelsOf_cons_mat]; exact h1, ?_⟩
      rw [h2, labelsOf_cons_mat, foldl_append]
      split <;> rfl
    | labels tr =>
      simp only [collect] at h
      obtain ⟨c, hc, h⟩ := bind_ok h
      obtain ⟨h1, h2⟩ := ih _ _ h
      obtain ⟨h3, h4⟩ := collectLabels_ok t hot level _ _ _ hc
      rw [labelsOf_cons_labels]
      refine ⟨?_, ?_⟩
      · intro l hl
        rcases List.mem_append.1 hl with hl | hl
        · exact h3 l hl
        · exact h1 l hl
      · rw [h2, h4]
        split
        · rename_i he
          simp only [List.isEmpty_iff] at he
          simp [he]
        · simp

/-- A list of labels only collects its labels. -/
theorem collect_onlyLabels (t : LabelThing) (hot : Bool) (level : Nat) (items : List RItem)
    (hi : ∀ i ∈ items, ∃ t, i = .labels t) :
    ∀ r r', collect (some t) hot level items r = .ok r' →
      r' = if (labelsOf items).isEmpty then r else
        { r with labels := r.labels ++ (labelsOf items).map (madeOf (some t) hot level), post := [] } := by
  induction items with
  | nil => intro r r' h; simp only [collect, Except.ok.injEq] at h; simp [h, labelsOf]
  | cons i is ih =>
    intro r r' h
    obtain ⟨tr, rfl⟩ := hi i (by simp)
    simp only [collect] at h
    obtain ⟨c, hc, h⟩ := bind_ok h
    have h2 := ih (fun j hj => hi j (by simp [hj])) _ _ h
    obtain ⟨_, h4⟩ := collectLabels_ok t hot level _ _ _ hc
    rw [labelsOf_cons_labels, h2, h4]
    by_cases ha : tr.labels = []
    · simp [ha]
    · by_cases hb : labelsOf is = []
      · simp [ha, hb]
      · simp [ha, hb]

/-- Materials, then labels, then materials are collected in their order. -/
theorem collect_framed (t : LabelThing) (hot : Bool) (level : Nat) (items : List RItem) (hf : Framed items)
    (c : RenderSt) (h : collect (some t) hot level items {} = .ok c) :
    ∃ a b d, items = a ++ b ++ d ∧ labelsOf a = [] ∧ labelsOf d = [] ∧ matsOf b = [] ∧
      c.pre ++ c.post = matElts hot a ++ matElts hot d ∧ c.labels = (labelsOf b).map (madeOf (some t) hot level) ∧
      (labelsOf b ≠ [] → c.pre = matElts hot a ∧ c.post = matElts hot d) := by
  obtain ⟨a, b, d, rfl, ha, hb, hd⟩ := hf
  have hm : ∀ x : List RItem, (∀ i ∈ x, ∃ m, i = .mat m) → labelsOf x = [] := by
    intro x hx
    simp only [labelsOf, List.flatMap_eq_nil_iff]
    intro i hi
    obtain ⟨m, rfl⟩ := hx i hi
    rfl
  have hl : matsOf b = [] := by
    simp only [matsOf, List.flatMap_eq_nil_iff]
    intro i hi
    obtain ⟨m, rfl⟩ := hb i hi
    rfl
  refine ⟨a, b, d, rfl, hm a ha, hm d hd, hl, ?_⟩
  rw [collect_append, collect_append, collect_noLabels _ _ _ _ _ (hm a ha)] at h
  obtain ⟨x, hx, h⟩ := bind_ok h
  change collect (some t) hot level b _ = .ok x at hx
  rw [collect_noLabels _ _ _ _ _ (hm d hd)] at h
  have hx := collect_onlyLabels t hot level b hb _ _ hx
  simp only [Except.ok.injEq] at h
  rw [foldl_append] at hx
  rw [foldl_append] at h
  subst h
  subst hx
  by_cases hbn : labelsOf b = []
  · simp [hbn]
  · simp [hbn]

end Verif.Lemmas.Pres
