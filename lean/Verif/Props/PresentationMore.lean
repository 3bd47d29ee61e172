import Verif.Props.Presentation

/-!
# Properties of migrated presentations: blanks, regions, sliders, failures, feedback
-/

namespace Verif.Props

open Verif Verif.Spec Verif.Pres Verif.Lemmas.Pres
open Verif.ItemXml (Elt Decl XExpr Rule)
open Verif.Dict (get)

set_option linter.unusedVariables false

/-- Are the steps of a slider labelled? -/
def sliderLabel : Elt → Option Bool
  | .slider _ _ _ _ _ l _ _ _ => l
  | _ => none

/-- The expected length is the one given. -/
theorem fibLength_kept (ro co mc : Option Str) : TextLength ro co mc (fibLength ro co mc) := by
  refine ⟨?_, ?_, ?_⟩
  · rintro n ⟨v, rfl, hv⟩ h0
    simp [fibLength, readInteger, hv, h0]
  · rintro rfl c ⟨v, rfl, hv⟩ h0
    constructor
    · rintro rfl
      simp [fibLength, readInteger, hv, h0]
    · rintro r ⟨w, rfl, hw⟩ hr0
      simp [fibLength, readInteger, hv, hw, h0, hr0]
  · rintro rfl rfl
    simp [fibLength]

/-- The base is set for numbers only. -/
theorem fibTypes_number {ff : Bool} {kind : RKind} {ft : Option Str} {base : Base} {t : Base × Base}
    (hb : BaseOk kind base) (h : fibTypes ff kind ft base = .ok t) :
    (if t.1 ≠ .string then some (10 : Int) else none) = if isNumber kind then some 10 else none := by
  cases ff with
  | true => cases kind <;> simp [fibTypes] at h <;> subst h <;> simp [isNumber]
  | false =>
    cases kind with
    | str =>
      simp only [fibTypes, Bool.false_eq_true, if_false] at h
      split at h
      · rw [← Except.ok.inj h]; simp [isNumber]
      · rename_i hs
        rw [← Except.ok.inj h]
        simp only [ne_eq, Classical.not_not] at hs
        simp [isNumber, hs]
    | num n =>
      simp only [fibTypes, Bool.false_eq_true, if_false] at h
      split at h
      · rw [← Except.ok.inj h]; simp [isNumber]
      · rename_i hs
        rw [← Except.ok.inj h]
        simp only [ne_eq, Classical.not_not] at hs
        simp only [hs]
        cases n with
        | none => rcases hb with h | h | h <;> simp [h, isNumber]
        | some n => rcases hb with h | h <;> simp [h, isNumber]
    | _ => simp [fibTypes] at h

theorem fibClass_kept (pr : Option Str) : (∀ v, pr = some v → Names.strip v ≠ [] → fibClass pr = some (Names.strip v)) ∧
    (pr = none → fibClass pr = none) := by
  refine ⟨?_, fun h => by rw [h]; rfl⟩
  rintro v rfl hv
  simp [fibClass, hv]

theorem textKept_entry {ff : Bool} {kind : RKind} {ft ro co mc pr : Option Str} {base : Base} {t : Base × Base} {n : Str}
    (hb : BaseOk kind base) (h : fibTypes ff kind ft base = .ok t) :
    TextKept kind ro co mc pr (Inter.elt n [] (.textEntry (fibClass pr) (fibAtts t.1 (fibLength ro co mc)))) :=
  ⟨fibLength_kept ro co mc, fibTypes_number hb h, fibClass_kept pr⟩

theorem textKept_extended {ff : Bool} {kind : RKind} {ft ro co mc pr : Option Str} {base : Base} {t : Base × Base} {n : Str}
    {mx : Option Int} {prompt : List Elt} (hb : BaseOk kind base) (h : fibTypes ff kind ft base = .ok t) :
    TextKept kind ro co mc pr (Inter.elt n prompt (.extended (fibClass pr) (fibAtts t.1 (fibLength ro co mc)) mx)) :=
  ⟨fibLength_kept ro co mc, fibTypes_number hb h, fibClass_kept pr⟩

/-- All the blanks are asked alike. -/
theorem fibIndexed_elts {ident : Str} {c : Option Str} {a : ItemXml.StringAtts} (cs : List FibChild)
    (hq : ∀ e, Made.elt e ∈ cs → Quiet e) : ∀ {r r' : RespSt} {s s' : ItemSt},
    fibIndexed ident (.textEntry c a) cs r s = .ok (r', s') →
    (∀ e ∈ interactionsAll (r.pre ++ r.post), ∃ n, e = Inter.elt n [] (.textEntry c a)) →
    ∀ e ∈ interactionsAll (r'.pre ++ r'.post), ∃ n, e = Inter.elt n [] (.textEntry c a) := by
  have step : ∀ (r : RespSt) (x : Elt), (∀ e ∈ interactionsAll (r.pre ++ r.post), ∃ n, e = Inter.elt n [] (.textEntry c a)) →
      (∀ e ∈ interactions x, ∃ n, e = Inter.elt n [] (.textEntry c a)) →
      ∀ e ∈ interactionsAll ((r.append x).pre ++ (r.append x).post), ∃ n, e = Inter.elt n [] (.textEntry c a) := by
    intro r x h1 h2 e he
    have : e ∈ interactionsAll (r.pre ++ r.post) ∨ e ∈ interactions x := by
      unfold RespSt.append at he
      split at he <;> simp only [interactionsAll_append, interactionsAll, List.append_nil, List.mem_append] at he ⊢ <;>
        rcases he with he | he
      · exact .inl (.inl he)
      · rcases he with he | he
        · exact .inl (.inr he)
        · exact .inr he
      · rcases he with he | he
        · exact .inl (.inl he)
        · exact .inr he
      · exact .inl (.inr he)
    rcases this with h | h
    · exact h1 e h
    · exact h2 e h
  induction cs with
  | nil =>
    intro r r' s s' he h
    simp only [fibIndexed, Except.ok.injEq, Prod.mk.injEq] at he
    obtain ⟨rfl, rfl⟩ := he
    exact h
  | cons x cs ih =>
    intro r r' s s' he h
    cases x with
    | elt x =>
      simp only [fibIndexed] at he
      refine ih (fun e he => hq e (by simp [he])) he (step r x h ?_)
      rw [(hq x (by simp)).2]
      intro e he; cases he
    | blank n =>
      simp only [fibIndexed] at he
      obtain ⟨s1, hs1, he⟩ := bind_ok he
      obtain ⟨b, hb1, he⟩ := bind_ok he
      refine ih (fun e he => hq e (by simp [he])) he (step _ _ h ?_)
      intro e he
      rw [show interactions (Inter.elt b.1 [] (.textEntry c a)) = [Inter.elt b.1 [] (.textEntry c a)] from rfl] at he
      exact ⟨b.1, List.mem_singleton.1 he⟩

/-! ## C98: the blanks of a text -/

/-- Blanks in a text are asked one by one, and the answers are put together in their order under the name of the
response, with its cardinality. -/
theorem blanks_collected_partial (ff : Bool) (kids : List FlowItem) (body : List Elt) (s : ItemSt)
    (h : presentation ff kids {} = .ok (body, s)) (hp : FlowsP PlainPiece kids) (q : Response)
    (hq : q ∈ responsesIn kids) (ft ro co mc pr mx : Option Str) (items : List RItem)
    (hr : rendersOf q.items = [(.fib ft ro co mc pr mx, items)]) (hc : q.card ≠ .single)
    (hl : labelsOf items ≠ []) (ht : ∀ m ∈ matsOf items, Mat TypedPiece m)
    (hm : (matsOf items).flatMap matSeen ≠ []) :
    ∃ pre es post d, interactionsAll body = pre ++ es ++ post ∧ es.length = (labelsOf items).length ∧
      (∀ e ∈ es, maxAnswers e = some 1 ∧ TextKept q.kind ro co mc pr e) ∧
      d ∈ s.decls ∧ d.outcome = true ∧ d.cardinality = q.card.text ∧
      Item.getResponse s.vars (readIdent q.ident) = .ok (some d.identifier) ∧
      .setOutcome d.identifier (.multi (if q.card = .ordered then "ordered".toList else "multiple".toList)
        (es.map fun e => .variable (responseOf e))) ∈ s.rules := by
  obtain ⟨level, s1, s2, o, pre, post, new, g1, g2, g3, g4, _⟩ := ran_presentation kids good_init hp h q hq
  have hpq := plain_response kids hp q hq
  obtain ⟨r1, p, es, blanks, own, b1, b2, b3, b4, b5, b6, b7, b8, b9, bes⟩ := response_one g1 hpq hr g2
  simp only [renderOne] at b5
  unfold renderFib at b5
  obtain ⟨t, hty, b5⟩ := bind_ok b5
  obtain ⟨cs, hcs, b5⟩ := bind_ok b5
  obtain ⟨t1, t2, t3⟩ := fibTypes_ok b1.base hty
  obtain ⟨c1, c2⟩ := fibChildren_seen level items ht cs hcs
  have hlab : cs.countP Made.isBlank ≠ 0 := by
    rw [c2]; intro h0; exact hl (List.length_eq_zero_iff.1 h0)
  have hlen : cs.countP Made.isBlank < cs.length := by
    refine Nat.lt_of_le_of_ne List.countP_le_length fun heq => hm ?_
    rw [List.countP_eq_length] at heq
    rw [← c1, List.flatMap_eq_nil_iff]
    intro x hx
    have := heq x hx
    cases x with
    | blank => rfl
    | elt e => simp [Made.isBlank] at this
  simp only at b5
  rw [if_pos ⟨hlab, hlen⟩, if_neg hc] at b5
  have hcq := fibChildren_quiet level items b8.1 cs hcs
  obtain ⟨more, a1, a2, a3, a4, a5, a6⟩ := fibIndexed_rb (s' := p.2) (r' := p.1) ⟨_, _, rfl⟩ cs hcq g1 (b1.setBase t2) t3 b5
  have hi0 : r1.index = 0 := by simpa using b1.len.symm
  have hidx : (p.1.appendAll es).index = (labelsOf items).length := by
    rw [appendAll_index, a4, c2]; simp [hi0]
  have hne : (p.1.appendAll es).index ≠ 0 := by
    rw [hidx]; intro h0; exact hl (List.length_eq_zero_iff.1 h0)
  obtain ⟨ho, hrule⟩ := b6.many hne
  have hids := b7.ids
  rw [← ho] at hids
  have hall : ∀ e ∈ interactionsAll ((p.1.appendAll es).pre ++ (p.1.appendAll es).post), ∃ n,
      e = Inter.elt n [] (.textEntry (fibClass pr) (fibAtts t.1 (fibLength ro co mc))) := by
    have h1 : interactionsAll (r1.pre ++ r1.post) = [] := by
      have := b1.ids; simpa using this
    have h2 := fibIndexed_elts cs hcq b5 (by simp only; rw [h1]; intro e he; cases he)
    have hq2 : interactionsAll es = [] := by
      rw [interactionsAll_flatMap, List.flatMap_eq_nil_iff]
      exact fun e he => (bes e he).2
    intro e he
    rw [appendAll_eq] at he
    refine h2 e ?_
    split at he <;> simp only [interactionsAll_append, hq2, List.append_nil, List.mem_append] at he ⊢ <;> exact he
  refine ⟨pre, interactionsAll o, post, own, g4, ?_, ?_, ?_, ?_, b6.cardinality, ?_, ?_⟩
  · have := congrArg List.length hids
    simp only [List.length_map] at this
    rw [this, b7.len, hidx]
  · intro e he
    rw [ho] at he
    obtain ⟨n, rfl⟩ := hall e he
    exact ⟨rfl, textKept_entry b1.base hty⟩
  · rw [g3.decls, b6.ext.decls]; simp
  · rw [b6.kind]; simp [hne]
  · rw [getResponse_eq g3.good.inv, g3.kept _ _ b6.name]
  · obtain ⟨more', hmore⟩ := g3.rules
    rw [hmore, hrule]
    have : (interactionsAll o).map (fun e => XExpr.variable (responseOf e)) =
        (blanks.map (·.identifier)).map XExpr.variable := by
      rw [← hids, List.map_map]; rfl
    rw [this]
    exact List.mem_append_left _ (List.mem_append_right _ (List.mem_singleton.2 rfl))

/-- The two blanks of the sample are collected, but when response processing follows, the variable in which they are
collected is no longer declared, though it still answers for the response. -/
theorem blanks_collected_refuted :
    (presentation false pSample {}).toOption.map (fun r =>
      let after := Item.resetResprocessing r.2.vars
      ((Item.getResponse r.2.vars "S".toList).toOption, Dict.has r.2.vars.declared "S".toList,
       (Item.getResponse after "S".toList).toOption, Dict.has after.declared "S".toList)) =
    some (some (some "S".toList), true, some (some "S".toList), false) := by
  decide +kernel

/-! ## C99: regions of an image -/

theorem imagesIn_object {data type : Option Str} {w h : Option Int} {es : List Elt} {r}
    (ht : isImageType type = .ok true) (hr : imagesIn (.object data type w h :: es) = .ok r) :
    r.1.head? = some (.object data type w h) := by
  simp only [imagesIn, ht] at hr
  obtain ⟨b, hb, hr⟩ := bind_ok hr
  simp only [Except.ok.injEq] at hb
  subst hb
  obtain ⟨x, hx, hr⟩ := bind_ok hr
  simp only [if_true, Except.ok.injEq] at hr
  subst hr
  rfl

theorem collect_pre (thing : Option LabelThing) (hot : Bool) (level : Nat) (items : List RItem) : ∀ r r',
    collect thing hot level items r = .ok r' → ∃ es, r'.pre = r.pre ++ es := by
  induction items with
  | nil => intro r r' h; simp only [collect, Except.ok.injEq] at h; exact ⟨[], by simp [h]⟩
  | cons i is ih =>
    intro r r' h
    cases i with
    | mat m =>
      simp only [collect] at h
      obtain ⟨es, he⟩ := ih _ _ h
      rw [he, foldl_append]
      split
      · exact ⟨materialElts hot m ++ es, by simp⟩
      · exact ⟨es, rfl⟩
    | labels t =>
      simp only [collect] at h
      obtain ⟨c, hc, h⟩ := bind_ok h
      obtain ⟨es, he⟩ := ih _ _ h
      exact ⟨es, by rw [he, (collectLabels_frame thing hot level _ _ _ hc).1]⟩

/-- A question about regions of an image, the first thing in its rendering, asks about that image; for choices of
regions there is one region for each label, in order, with its name and its place. -/
theorem regions_kept_partial (ff : Bool) (kids : List FlowItem) (body : List Elt) (s : ItemSt)
    (h : presentation ff kids {} = .ok (body, s)) (hp : FlowsP PlainPiece kids) (q : Response)
    (hq : q ∈ responsesIn kids) (mx : Option Str) (m : Material) (rest : List RItem) (type : Option Str) (uri : Str)
    (w ht : Option Int) (ps : List Piece)
    (hr : rendersOf q.items = [(.hotspot mx, .mat m :: rest)]) (hm : m.pieces = .image type (some uri) w ht :: ps)
    (hu : uri ≠ []) (hty : (typeOr "image/jpeg" type).take 6 = "image/".toList)
    (hk : q.kind = .lid ∨ q.kind = .xy ∧ q.card ≠ .ordered) :
    ∃ e ∈ interactionsAll body, Item.getResponse s.vars (readIdent q.ident) = .ok (some (responseOf e)) ∧
      graphicOf e = [.media uri] ∧
      (q.kind = .lid → (choicesOf e).map choiceId = (labelsOf rest).map (fun l => readIdent l.ident) ∧
        (∀ (k : Nat) l c, (labelsOf rest)[k]? = some l → (choicesOf e)[k]? = some c → ∀ sh shape coords,
          readArea l.rarea = .ok (some sh) → Shapes.convertAreaCoords sh (labelData l) = .ok (shape, coords) →
          regionOf c = some (shapeText shape, coords))) := by
  obtain ⟨level, s1, s2, o, pre, post, new, g1, g2, g3, g4, _⟩ := ran_presentation kids good_init hp h q hq
  have hpq := plain_response kids hp q hq
  obtain ⟨r1, p, es, blanks, own, b1, b2, b3, b4, b5, b6, b7, b8, b9, bes⟩ := response_one g1 hpq hr g2
  simp only [renderOne] at b5
  obtain ⟨x, hx, b5⟩ := bind_ok b5
  simp only [Except.ok.injEq] at b5
  subst b5
  unfold renderHotspot at hx
  obtain ⟨th, hth, hx⟩ := bind_ok hx
  obtain ⟨c, hc, hx⟩ := bind_ok hx
  obtain ⟨a, ha, hx⟩ := bind_ok hx
  obtain ⟨b, hb, hx⟩ := bind_ok hx
  simp only [Except.ok.injEq] at hx
  obtain ⟨t, ht1⟩ : ∃ t, th.1 = some t := by
    rcases hk with hk | ⟨hk, hcard⟩ <;> rw [hk] at hth
    · cases hcc : q.card <;> rw [hcc] at hth <;> simp only [hotThing, Except.ok.injEq] at hth <;> subst hth <;>
        exact ⟨_, rfl⟩
    · cases hcc : q.card <;> rw [hcc] at hth hcard
      · simp only [hotThing, Except.ok.injEq] at hth; subst hth; exact ⟨_, rfl⟩
      · simp only [hotThing, Except.ok.injEq] at hth; subst hth; exact ⟨_, rfl⟩
      · exact absurd rfl hcard
  let g : Elt := .object (some uri) (some (typeOr "image/jpeg" type)) (sized w) (sized ht)
  have hgiven : Pres.given (some uri) = true := by
    cases uri with
    | nil => exact absurd rfl hu
    | cons => rfl
  have hpre : ∃ tl, c.pre = g :: tl := by
    simp only [collect] at hc
    obtain ⟨tl, htl⟩ := collect_pre _ _ _ _ _ _ hc
    rw [htl, foldl_append]
    simp only [List.isEmpty_nil, if_true, List.nil_append, materialElts, hm, List.flatMap_cons, pieceElts, hgiven]
    exact ⟨_, rfl⟩
  obtain ⟨tl, htl⟩ := hpre
  rw [htl] at ha
  have hhead := imagesIn_object (by simp [-String.reduceToList, isImageType, hty]) ha
  have hhead2 : (a.1 ++ b.1).head? = some g := by
    cases ha1 : a.1 with
    | nil => rw [ha1] at hhead; cases hhead
    | cons y ys => rw [ha1] at hhead; simpa using hhead
  rw [hhead2, ht1] at hx
  simp only at hx
  have hi : x.index = 0 := by
    have := b1.len
    simp only [List.length_nil] at this
    rw [← hx]
    simp only [appendAll_index, ← this]
  have hin : x.inter = some (hotInter (readCount mx) g c.labels t) := by rw [← hx]; simp only [appendAll_inter]
  obtain ⟨prompt, hint⟩ := closed_one b7 b6 (by rw [appendAll_index]; exact hi) (by rw [appendAll_inter]; exact hin)
  refine ⟨(hotInter (readCount mx) g c.labels t).elt own.identifier prompt, by rw [g4, hint]; simp, ?_, ?_, ?_⟩
  · rw [responseOf_elt, getResponse_eq g3.good.inv, g3.kept _ _ b6.name]
  · have hs : seen g = [.media uri] := by
      simp only [g, seen]
      cases uri with
      | nil => exact absurd rfl hu
      | cons => rfl
    cases t <;> simp only [hotInter, Inter.elt, graphicOf] <;> exact hs
  · intro hlid
    rw [hlid] at hth
    have hth2 : th.2 = some .hotspot ∧ (t = .order ∨ t = .hotspot) := by
      cases hcc : q.card <;> rw [hcc] at hth <;> simp only [hotThing, Except.ok.injEq] at hth <;> subst hth <;>
        simp only [Option.some.injEq] at ht1 <;> subst ht1 <;> simp
    rw [hth2.1] at hc
    obtain ⟨l1, l2⟩ := collect_labels .hotspot true level _ _ _ hc
    rw [labelsOf_cons_mat] at l1 l2
    simp only [List.nil_append] at l2
    have hch : choicesOf ((hotInter (readCount mx) g c.labels t).elt own.identifier prompt) = c.labels := by
      rcases hth2.2 with rfl | rfl <;> rfl
    rw [hch, l2]
    have hone : ∀ l ∈ labelsOf rest, choiceId (madeOf (some .hotspot) true level l) = readIdent l.ident ∧
        ∀ sh shape coords, readArea l.rarea = .ok (some sh) →
          Shapes.convertAreaCoords sh (labelData l) = .ok (shape, coords) →
          regionOf (madeOf (some .hotspot) true level l) = some (shapeText shape, coords) := by
      intro l hl
      have h1 := l1 l hl
      unfold closeLabel at h1
      obtain ⟨sh, hsh, h1⟩ := bind_ok h1
      obtain ⟨ar, har, h1⟩ := bind_ok h1
      obtain ⟨tx, htx, h1⟩ := bind_ok h1
      simp only [Except.ok.injEq, Option.some.injEq, Made.elt.injEq] at h1
      rw [← h1]
      refine ⟨rfl, ?_⟩
      intro sh' shape coords e1 e2
      rw [e1] at hsh
      simp only [Except.ok.injEq] at hsh
      subst hsh
      unfold labelArea at har
      simp only [e2] at har
      have har : (shapeText shape, coords) = ar := Except.ok.inj har
      rw [← har]; rfl
    refine ⟨?_, ?_⟩
    · rw [List.map_map]
      apply List.map_congr_left
      intro l hl; exact (hone l hl).1
    · intro k l c' hk1 hk2
      rw [List.getElem?_map, hk1] at hk2
      simp only [Option.map_some, Option.some.injEq] at hk2
      subst hk2
      exact (hone l (List.mem_of_getElem? hk1)).2

/-- An image that is not the first is not shown at all, and a label whose text has a line break or an image is a
failure. -/
theorem regions_kept_refuted :
    Shown [.resp { kind := .xy, ident := "R".toList, items := [.render (.hotspot none)
        [.mat { pieces := [.image none (some "map.png".toList) none none, .image none (some "key.png".toList) none none] }]] }]
      [.media "map.png".toList] [.media "map.png".toList, .media "key.png".toList] ∧
    (match presentation false [.resp { kind := .lid, ident := "R".toList, items := [.render (.hotspot none)
        [.mat { pieces := [.image none (some "map.png".toList) none none] },
         .labels (.label { ident := "A".toList, rarea := some "rectangle".toList, items := [.data "0,0,9,9".toList,
            .content (.mat { pieces := [.text none none "one".toList, .brk] })] })]] }] {} with
      | .error .attributeError => true
      | _ => false) = true := by
  decide +kernel

/-! ## C100: sliders -/

theorem pyInt_int (k : Int) : truncRat (k : Rat) = k := by
  unfold truncRat
  split
  · rw [show (-(k : Rat)) = ((-k : Int) : Rat) by simp, Rat.floor_intCast]; omega
  · exact Rat.floor_intCast k

/-- A slider runs between the bounds of the source, with its steps. -/
theorem slider_bounds_partial (ff : Bool) (kids : List FlowItem) (body : List Elt) (s : ItemSt)
    (h : presentation ff kids {} = .ok (body, s)) (hp : FlowsP PlainPiece kids) (q : Response)
    (hq : q ∈ responsesIn kids) (orientation : Option Str) (lower upper step startval : Option (Option FloatVal))
    (steplabel : Option Str) (items : List RItem)
    (hr : rendersOf q.items = [(.slider orientation lower upper step startval steplabel, items)])
    (hk : ∃ n, q.kind = .num n) (hc : q.card = .single) :
    ∃ resp b lo up st sl o rv p, .slider resp b lo up st sl o rv p ∈ interactionsAll body ∧
      Item.getResponse s.vars (readIdent q.ident) = .ok (some resp) ∧
      BoundKept (decide (q.kind.base = .integer)) "0".toList lower lo.text ∧
      BoundKept (decide (q.kind.base = .integer)) "100".toList upper up.text ∧
      StepKept (decide (q.kind.base = .integer)) step (st.map (·.text)) ∧
      o = some (if orientation.map (fun v => Py.lower (Names.strip v)) = some "vertical".toList then "vertical".toList
        else "horizontal".toList) := by
  obtain ⟨level, s1, s2, out, pre, post, new, g1, g2, g3, g4, _⟩ := ran_presentation kids good_init hp h q hq
  have hpq := plain_response kids hp q hq
  obtain ⟨r1, p, es, blanks, own, b1, b2, b3, b4, b5, b6, b7, b8, b9, bes⟩ := response_one g1 hpq hr g2
  obtain ⟨n, hk⟩ := hk
  simp only [renderOne] at b5
  obtain ⟨x, hx, b5⟩ := bind_ok b5
  simp only [Except.ok.injEq] at b5
  subst b5
  rw [hk, hc] at hx
  unfold renderSlider at hx
  obtain ⟨th, hth, hx⟩ := bind_ok hx
  obtain ⟨c, hcc, hx⟩ := bind_ok hx
  obtain ⟨y, hy, hx⟩ := bind_ok hx
  have hx' := Except.ok.inj hx
  simp only [sliderThing] at hth
  split at hth
  · cases hth
  · simp only [Except.ok.injEq] at hth
    subst hth
    simp only [if_true] at hy
    obtain ⟨i, hi, hy⟩ := bind_ok hy
    have hy' := Except.ok.inj hy
    simp only [sliderInter] at hi
    cases steplabel with
    | none => cases hi
    | some v =>
      have hi' := Except.ok.inj hi
      have hidx : x.index = 0 := by
        have := b1.len
        simp only [List.length_nil] at this
        rw [← hx', ← hy']
        simp only [appendAll_index, ← this]
      have hin : x.inter = some i := by rw [← hx', ← hy']; simp only [appendAll_inter]
      obtain ⟨prompt, hint⟩ := closed_one b7 b6 (by rw [appendAll_index]; exact hidx) (by rw [appendAll_inter]; exact hin)
      have hbk : ∀ (d : Int) (attr : Option (Option FloatVal)),
          BoundKept (decide (q.kind.base = .integer)) (ItemXml.strInt d) attr
            (sliderBound (decide ((r1.appendAll c.pre).baseType = .integer)) d attr).text := by
        intro d attr
        rw [appendAll_base, b3]
        unfold BoundKept sliderBound
        match attr with
        | none => rfl
        | some none => trivial
        | some (some f) =>
          by_cases hint : q.kind.base = .integer
          · simp only [hint, decide_true, if_true]
            intro k hfk
            rw [hfk, pyInt_int]; rfl
          · simp [hint, floatNum]
      have hst : StepKept (decide (q.kind.base = .integer)) step
          ((sliderStep (decide ((r1.appendAll c.pre).baseType = .integer)) step).map (·.text)) := by
        rw [appendAll_base, b3]
        unfold StepKept sliderStep
        match step with
        | none => rfl
        | some none => rfl
        | some (some f) =>
          by_cases hint : q.kind.base = .integer
          · simp only [hint, decide_true, if_true]
            intro k hfk
            rw [hfk, pyInt_int]
            by_cases hk0 : k = 0 <;> simp [intNum, hk0]
          · by_cases hf0 : f.val = 0 <;> simp [hint, floatNum, hf0]
      rw [← hi'] at hint
      refine ⟨_, _, _, _, _, _, _, _, _, by rw [g4, hint]; exact List.mem_append_left _ (List.mem_append_right _ (List.mem_singleton.2 rfl)), ?_, ?_, ?_, hst, ?_⟩
      · rw [getResponse_eq g3.good.inv, g3.kept _ _ b6.name]
      · simpa [show ItemXml.strInt 0 = "0".toList by decide +kernel] using hbk 0 lower
      · simpa [show ItemXml.strInt 100 = "100".toList by decide +kernel] using hbk 100 upper
      · unfold readOrientation
        cases orientation with
        | none => simp [-String.reduceToList]
        | some v => simp only [Option.map_some, Option.some.injEq]

/-- The start value of a slider is not kept, nor that its steps are to be labelled; without `steplabel` there is a
failure, and without a start value an integer slider is one. -/
theorem slider_kept_refuted :
    (presentation false [.resp { kind := .num (some "Decimal".toList), ident := "R".toList, items :=
      [.render (.slider none none none none (some (some ⟨5, "5.0".toList⟩)) (some "Yes".toList)) []] }] {}).toOption.map
        (fun r => ((interactionsAll r.1).map sliderLabel, r.2.decls.map fun d => d.default.isSome)) =
      some ([some false], [false]) ∧
    (match presentation false [.resp { kind := .num (some "Decimal".toList), ident := "R".toList, items :=
        [.render (.slider none none none none none none) []] }] {} with
      | .error .attributeError => true | _ => false) = true ∧
    (match presentation false [.resp { kind := .num (some "Integer".toList), ident := "R".toList, items :=
        [.render (.slider none none none none none (some "Yes".toList)) []] }] {} with
      | .error .typeError => true | _ => false) = true := by
  decide +kernel

/-! ## C101: rubrics, objectives and feedback -/

/-- Feedback shows what the source shows. -/
theorem feedback_kept_partial (ident : Str) (title : Option Str) (items : List FbItem)
    (h : ∀ i ∈ items, MatFs TypedPiece (fbKids i)) :
    seenAll (itemFeedback ident title items).kids = items.flatMap fbSeen := by
  simp only [itemFeedback]
  have hhint : ∀ ks : List MatFlow, MatFs TypedPiece ks → seenAll (ks.flatMap hintElts) = matFlowsSeen ks := by
    intro ks
    induction ks with
    | nil => intro _; simp [matFlowsSeen, seenAll]
    | cons k ks ih =>
      intro hk
      simp only [List.flatMap_cons, seenAll_append, ih hk.2, matFlowsSeen]
      congr 1
      cases k with
      | mat m => exact seen_material false m hk.1
      | flow cls kids => exact seen_inner false 0 _ hk.1
  induction items with
  | nil => simp [seenAll]
  | cons i is ih =>
    simp only [List.flatMap_cons, seenAll_append, ih fun x hx => h x (by simp [hx])]
    congr 1
    have hi := h i (by simp)
    cases i with
    | content c => exact seen_wrapped false 0 c hi.1
    | solution st kids => simp only [feedbackElts, seenAll, seen, List.append_nil, fbSeen]; exact seen_wrapped_all false 0 kids hi
    | hint st kids => simp only [feedbackElts, seenAll, seen, List.append_nil, fbSeen]; exact hhint kids hi

theorem matFs_mem {P : Piece → Prop} : ∀ (ks : List MatFlow), MatFs P ks → ∀ k ∈ ks, MatF P k
  | [], _, _, hk => by cases hk
  | a :: as, h, k, hk => by
    rcases List.mem_cons.1 hk with rfl | hk
    · exact h.1
    · exact matFs_mem as h.2 k hk

theorem std_wrapped_all (hot : Bool) (level : Nat) (ks : List MatFlow) (hp : MatFs PlainPiece ks) :
    ∀ e ∈ ks.flatMap (wrappedElts hot level), isBlock e = true := by
  have hin : ∀ k : MatFlow, MatF PlainPiece k → ∀ level, ∀ e ∈ innerElts hot level k, Std e := by
    intro k
    refine (MatFlow.rec (motive_1 := fun k => MatF PlainPiece k → ∀ level, ∀ e ∈ innerElts hot level k, Std e)
      (motive_2 := fun ks => MatFs PlainPiece ks → ∀ level, ∀ e ∈ innerEltsAll hot level ks, Std e)
      ?_ ?_ ?_ ?_ k : _)
    · intro m hm level e he; exact std_material hot m hm e he
    · intro cls kids ih hk level e he
      simp only [innerElts] at he
      exact closeFlow_std _ _ _ (ih hk (level + 1)) e he
    · intro _ level e he; cases he
    · intro k ks ih1 ih2 hk level e he
      simp only [innerEltsAll] at he
      rcases List.mem_append.1 he with he | he
      · exact ih1 hk.1 level e he
      · exact ih2 hk.2 level e he
  intro e he
  obtain ⟨k, hk, he⟩ := List.mem_flatMap.1 he
  have hkp := matFs_mem ks hp k hk
  cases k with
  | mat m =>
    simp only [wrappedElts] at he
    exact closeFlow_block _ _ _ (std_material hot m hkp) e he
  | flow cls kids =>
    simp only [wrappedElts, innerElts] at he
    refine closeFlow_block _ _ _ ?_ e he
    intro x hx
    have : ∀ (ks : List MatFlow), MatFs PlainPiece ks → ∀ level, ∀ e ∈ innerEltsAll hot level ks, Std e := by
      intro ks
      induction ks with
      | nil => intro _ level e he; cases he
      | cons a as ih =>
        intro hk level e he
        simp only [innerEltsAll] at he
        rcases List.mem_append.1 he with he | he
        · exact hin a hk.1 level e he
        · exact ih hk.2 level e he
    exact this kids hkp _ x hx

/-- A rubric shows what the source shows. -/
theorem rubric_kept_partial (view : Option Str) (kids : List MatFlow) (ht : MatFs TypedPiece kids)
    (hp : MatFs PlainPiece kids) : seen (rubric view kids) = matFlowsSeen kids := by
  have hb : blocks kids = kids.flatMap (wrappedElts false 0) := by
    unfold blocks
    rw [List.filter_eq_self]
    exact std_wrapped_all false 0 kids hp
  unfold rubric
  split <;> simp only [seen, hb] <;> exact seen_wrapped_all false 0 kids ht

/-- The texts shown by elements that show only text. -/
def textsOf (l : List Seen) : Str := l.flatMap fun | .text s => s | _ => []

mutual
theorem extractText_seen : ∀ (e : Elt) t, extractText e = .ok t →
    (∀ x ∈ seen e, ∃ s, x = .text s) ∧ t = textsOf (seen e)
  | .text s, t, h => by
    simp only [extractText, Except.ok.injEq] at h
    subst h
    simp [seen, textsOf]
  | .inline _ _ kids, t, h => by simp only [extractText] at h; simpa only [seen] using extractTexts_seen kids t h
  | .p _ kids, t, h => by simp only [extractText] at h; simpa only [seen] using extractTexts_seen kids t h
  | .pre _ kids, t, h => by simp only [extractText] at h; simpa only [seen] using extractTexts_seen kids t h
  | .blockquote _ kids, t, h => by simp only [extractText] at h; simpa only [seen] using extractTexts_seen kids t h
  | .br _, t, h | .img .., t, h => by simp only [extractText] at h; cases h
theorem extractTexts_seen : ∀ (es : List Elt) t, extractTexts es = .ok t →
    (∀ x ∈ seenAll es, ∃ s, x = .text s) ∧ t = textsOf (seenAll es)
  | [], t, h => by simp only [extractTexts, Except.ok.injEq] at h; subst h; simp [seenAll, textsOf]
  | e :: es, t, h => by
    simp only [extractTexts] at h
    obtain ⟨a, ha, h⟩ := bind_ok h
    obtain ⟨b, hb, h⟩ := bind_ok h
    simp only [Except.ok.injEq] at h
    obtain ⟨x1, x2⟩ := extractText_seen e a ha
    obtain ⟨y1, y2⟩ := extractTexts_seen es b hb
    subst h x2 y2
    simp only [seenAll, textsOf, List.flatMap_append, List.mem_append]
    refine ⟨?_, trivial⟩
    intro x hx
    rcases hx with hx | hx
    · exact x1 x hx
    · exact y1 x hx
end

/-- Objectives for everyone become a description that says what they show; those for some become a rubric for those
that shows it. -/
theorem objectives_kept_partial (view : Option Str) (kids : List MatFlow) (ht : MatFs TypedPiece kids)
    (hp : MatFs PlainPiece kids) (o : Elt ⊕ Str) (h : objectives view kids = .ok o) :
    match o with
    | .inl e => seen e = matFlowsSeen kids
    | .inr t => t = textsOf (matFlowsSeen kids) ∧ ∀ x ∈ matFlowsSeen kids, ∃ s, x = .text s := by
  have hb : blocks kids = kids.flatMap (wrappedElts false 0) := by
    unfold blocks
    rw [List.filter_eq_self]
    exact std_wrapped_all false 0 kids hp
  have hs := seen_wrapped_all false 0 kids ht
  unfold objectives at h
  split at h
  · obtain ⟨t, h1, h⟩ := bind_ok h
    simp only [Except.ok.injEq] at h
    subst h
    obtain ⟨x1, x2⟩ := extractTexts_seen _ _ h1
    rw [hb, hs] at x1 x2
    exact ⟨x2, x1⟩
  · simp only [Except.ok.injEq] at h
    subst h
    simp only [seen, hb]
    exact hs

/-- Two regions of a map, and a slider. -/
def pRegions : List FlowItem :=
  [.resp { kind := .lid, ident := "R".toList, items := [.render (.hotspot (some "2".toList))
      [.mat { pieces := [.image (some "image/png".toList) (some "map.png".toList) none none] },
       .labels (.label { ident := "A".toList, rarea := some "Rectangle".toList, items := [.data "1,2,30,40".toList] }),
       .labels (.label { ident := "B".toList, rarea := some "Ellipse".toList, items := [.data "50,60,8,8".toList] })]] },
   .resp { kind := .num (some "Decimal".toList), ident := "N".toList, items := [.render
      (.slider (some "Vertical".toList) (some (some ⟨2, "2.0".toList⟩)) none none none (some "Yes".toList)) []] }]

/-- The regions of a choice. -/
def regionOfElt (e : Elt) : List (Option (Str × List Int)) := (choicesOf e).map regionOf

/-- The sample with regions and a slider is migrated, so the theorems above say something about it. -/
theorem pRegions_shown :
    FlowsP PlainPiece pRegions ∧
    (presentation false pRegions {}).toOption.map (fun r => (interactionsAll r.1).map responseOf) =
      some ["R".toList, "N".toList] ∧
    (presentation false pRegions {}).toOption.map (fun r => (interactionsAll r.1).map graphicOf) =
      some [[.media "map.png".toList], []] ∧
    (presentation false pRegions {}).toOption.map (fun r => (interactionsAll r.1).flatMap regionOfElt) =
      some [some ("rect".toList, [1, 2, 40, 31]), some ("circle".toList, [50, 60, 4])] := by
  refine ⟨?_, by decide +kernel, by decide +kernel, by decide +kernel⟩
  simp [pRegions, FlowsP, FlowP, RespItemP, ItemsP, LabelP, Mat, PlainPiece, matsOf, labelsOf,
    LabelTree.labels, labelContents]
  intro l
  refine ⟨?_, ?_⟩ <;> rintro rfl <;> simp [MatFs]

/-- Emphasised text of a type the converter does not know is lost from feedback and rubrics; objectives for all with
a line break are a failure. -/
theorem feedback_kept_refuted :
    (itemFeedback "F".toList none [.content (.mat { pieces := [.emtextOther "well done".toList] })]).kids.flatMap seen = [] ∧
    fbSeen (.content (.mat { pieces := [.emtextOther "well done".toList] })) = [.text "well done".toList] ∧
    (match objectives none [.mat { pieces := [.text none none "know".toList, .brk] }] with
      | .error .attributeError => true | _ => false) = true := by
  decide +kernel

/-- The same for feedback with a text, a solution and a hint. -/
theorem feedback_hypotheses :
    ∀ i ∈ [FbItem.content (.mat { pieces := [.text none none "no".toList] }),
        .solution none [.mat { pieces := [.text none none "so".toList, .brk] }],
        .hint none [.flow none [.mat { pieces := [.emtext none none "look".toList] }]]],
      MatFs TypedPiece (fbKids i) := by
  simp [-String.reduceToList, fbKids, MatFs, MatF, Mat, TypedPiece]

end Verif.Props
