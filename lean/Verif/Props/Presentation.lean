import Verif.Lemmas.PresentationBound

/-!
# Properties of migrated presentations: what is shown, what is asked, and how it is answered
-/

namespace Verif.Props

open Verif Verif.Spec Verif.Pres Verif.Lemmas.Pres
open Verif.ItemXml (Elt Decl XExpr Rule)
open Verif.Dict (get)

set_option linter.unusedVariables false

/-! ## The parts of a response -/

/-- A response with one rendering: what stands before it, the rendering, what stands after it. -/
theorem respItems_one {ff : Bool} {kind : RKind} {card : Card} {ident : Str} {level : Nat} {k : Render}
    {items : List RItem} (is : List RespItem) (hr : rendersOf is = [(k, items)])
    (hp : ∀ i ∈ is, RespItemP PlainPiece i) : ∀ {r r' : RespSt} {s s' : ItemSt},
    Good s → RB kind card ident s r [] → r.inter = none → respItems ff kind card ident level is r s = .ok (r', s') →
      ∃ r1 q es, Good s ∧ RB kind card ident s r1 [] ∧ r1.inter = none ∧ r1.baseType = r.baseType ∧
        r1.default = r.default ∧
        renderOne ff kind card ident level k items r1 s = .ok q ∧ r' = q.1.appendAll es ∧ s' = q.2 ∧
        ItemsP PlainPiece items ∧ ∀ e ∈ es, Quiet e := by
  have hmats : ∀ (is : List RespItem), rendersOf is = [] → (∀ i ∈ is, RespItemP PlainPiece i) →
      ∀ {r r' : RespSt} {s s' : ItemSt}, respItems ff kind card ident level is r s = .ok (r', s') →
        ∃ es, r' = r.appendAll es ∧ s' = s ∧ ∀ e ∈ es, Quiet e := by
    intro is
    induction is with
    | nil =>
      intro _ _ r r' s s' h
      simp only [respItems, Except.ok.injEq, Prod.mk.injEq] at h
      exact ⟨[], h.1.symm, h.2.symm, by intro e he; cases he⟩
    | cons i is ih =>
      intro hr hp r r' s s' h
      cases i with
      | mat m =>
        simp only [respItems] at h
        have hm : Mat PlainPiece m := hp (.mat m) (by simp)
        obtain ⟨es, e1, e2, e3⟩ := ih (by simpa [rendersOf] using hr) (fun x hx => hp x (by simp [hx])) h
        refine ⟨materialElts false m ++ es, by rw [e1]; simp [RespSt.appendAll, List.foldl_append], e2, ?_⟩
        intro e he
        rcases List.mem_append.1 he with he | he
        · exact quiet_material false m hm e he
        · exact e3 e he
      | render k items => simp [rendersOf] at hr
  induction is with
  | nil => simp [rendersOf] at hr
  | cons i is ih =>
    intro r r' s s' hs hrb hn h
    have hp' : ∀ i ∈ is, RespItemP PlainPiece i := fun x hx => hp x (by simp [hx])
    cases i with
    | mat m =>
      simp only [respItems] at h
      have hm : Mat PlainPiece m := hp (.mat m) (by simp)
      obtain ⟨r1, q, es, h1, h2, h3, h4, h5, h6⟩ := ih (by simpa [rendersOf] using hr) hp' hs
        (hrb.append (quiet_material false m hm)) (by rw [appendAll_inter]; exact hn) h
      refine ⟨r1, q, es, h1, h2, h3, by rw [h4, appendAll_base], ?_, h6⟩
      rw [h5, appendAll_eq]; split <;> rfl
    | render k' items' =>
      have hr' : rendersOf (.render k' items' :: is) = (k', items') :: rendersOf is := by simp [rendersOf]
      rw [hr'] at hr
      simp only [List.cons.injEq, Prod.mk.injEq] at hr
      obtain ⟨⟨rfl, rfl⟩, hr⟩ := hr
      simp only [respItems] at h
      obtain ⟨q, hq, h⟩ := bind_ok h
      obtain ⟨es, e1, e2, e3⟩ := hmats is hr hp' h
      have hit : ItemsP PlainPiece items' := hp (.render k' items') (by simp)
      exact ⟨r, q, es, hs, hrb, hn, rfl, rfl, hq, e1, e2, hit, e3⟩

/-- The parts of a response with one rendering. -/
theorem response_one {ff : Bool} {level : Nat} {q : Response} {s s' : ItemSt} {out : List Elt} {k : Render}
    {items : List RItem} (hs : Good s) (hp : ∀ i ∈ q.items, RespItemP PlainPiece i)
    (hr : rendersOf q.items = [(k, items)]) (h : response ff level q s = .ok (out, s')) :
    ∃ r1 p es blanks own, RB q.kind q.card (readIdent q.ident) s r1 [] ∧ r1.inter = none ∧
      r1.baseType = q.kind.base ∧ r1.default = none ∧
      renderOne ff q.kind q.card (readIdent q.ident) level k items r1 s = .ok p ∧
      Closed q.card (readIdent q.ident) (p.1.appendAll es) p.2 s' blanks out own ∧
      RB q.kind q.card (readIdent q.ident) p.2 (p.1.appendAll es) blanks ∧ ItemsP PlainPiece items ∧
      Ext s p.2 blanks ∧ ∀ e ∈ es, Quiet e := by
  unfold response at h
  obtain ⟨r, hrr, h⟩ := bind_ok h
  obtain ⟨blanks, h1, h2⟩ := respItems_rb (s' := r.2) (r' := r.1) q.items hp hs (rb_init _ _ _ s) hrr
  simp only [List.nil_append] at h1
  obtain ⟨r1, p, es, e1, e2, e3, e4, e5, e6, e7, e8, e9, e10⟩ := respItems_one (s' := r.2) (r' := r.1) q.items hr hp hs
    (rb_init _ _ _ s) rfl hrr
  obtain ⟨own, c⟩ := closeResponse_closed h2.good h1 h
  refine ⟨r1, p, es, blanks, own, e2, e3, e4, e5, e6, ?_, ?_, e9, ?_, e10⟩
  · rw [← e7, ← e8]; exact c
  · rw [← e7, ← e8]; exact h1
  · rw [← e8]; exact h2

/-- The interaction of a response that was given one. -/
theorem closed_one {kind : RKind} {card : Card} {ident : Str} {r : RespSt} {s s' : ItemSt} {blanks : List Decl}
    {out : List Elt} {own : Decl} (hr : RB kind card ident s r blanks) (c : Closed card ident r s s' blanks out own)
    (hi : r.index = 0) {i : Inter} (hri : r.inter = some i) :
    ∃ prompt, interactionsAll out = [i.elt own.identifier prompt] := by
  have hbl : blanks = [] := by
    have := hr.len; rw [hi] at this; exact List.length_eq_zero_iff.1 this
  have hno : interactionsAll (r.pre ++ r.post) = [] := by
    have := hr.ids; rw [hbl] at this; simpa using this
  rw [interactionsAll_append, List.append_eq_nil_iff] at hno
  obtain ⟨pre, prompt, ho, hpp⟩ := c.one hi i hri
  refine ⟨prompt, ?_⟩
  rw [ho]
  simp only [interactionsAll_append, hno.2, List.append_nil]
  rcases hpp with ⟨rfl, rfl⟩ | ⟨rfl, rfl⟩
  · simp [hno.1, interactionsAll, interactions_elt]
  · simp [interactionsAll, interactions_elt]

/-! ## C93: what the source shows is shown -/

/-- Everything the presentation shows is shown by the item body, in its order, and nothing else is. -/
theorem material_kept_partial (ff : Bool) (kids : List FlowItem) (body : List Elt) (s : ItemSt)
    (h : presentation ff kids {} = .ok (body, s)) (ht : FlowsP TypedPiece kids) (hp : FlowsP PlainPiece kids)
    (hk : ∀ q ∈ responsesIn kids, RespKept q) : seenAll body = flowSeen kids :=
  seen_presentation kids good_init ht hp hk h

/-! ## C94, C95: interactions and their responses -/

/-- Each interaction has a response of its own, which is declared for it. -/
theorem interactions_bound (ff : Bool) (kids : List FlowItem) (body : List Elt) (s : ItemSt)
    (h : presentation ff kids {} = .ok (body, s)) (hp : FlowsP PlainPiece kids) :
    ((interactionsAll body).map responseOf).Nodup ∧
    (∀ e ∈ interactionsAll body, ∃ d ∈ s.decls, d.outcome = false ∧ d.identifier = responseOf e) ∧
    (s.decls.map (·.identifier)).Nodup := by
  obtain ⟨new, hl⟩ := laid_presentation kids good_init hp h
  have hd : s.decls = new := by rw [hl.ext.decls]; rfl
  refine ⟨?_, ?_, hl.ext.good.nodup⟩
  · refine List.Sublist.nodup hl.ids (List.Sublist.nodup ?_ hl.ext.good.nodup)
    rw [hd]
    exact List.filter_sublist.map _
  · intro e he
    have := hl.ids.subset (List.mem_map_of_mem he)
    obtain ⟨d, hm, e1⟩ := List.mem_map.1 this
    rw [List.mem_filter] at hm
    exact ⟨d, by rw [hd]; exact hm.1, by simpa using hm.2, e1⟩

/-- The response of an interaction has a cardinality and a base type that suit it. -/
theorem interactions_fit_partial (ff : Bool) (kids : List FlowItem) (body : List Elt) (s : ItemSt)
    (h : presentation ff kids {} = .ok (body, s)) (hp : FlowsP PlainPiece kids)
    (hk : ∀ q ∈ responsesIn kids, q.kind ≠ .num none) :
    ∀ e ∈ interactionsAll body, ∃ d ∈ s.decls, d.outcome = false ∧ d.identifier = responseOf e ∧
      Suits e d.cardinality d.baseType := by
  obtain ⟨new, hl⟩ := laid_presentation kids good_init hp h
  have hd : s.decls = new := by rw [hl.ext.decls]; rfl
  rw [hd]
  exact hl.fits hk

/-! ## C96, C97: choices -/

theorem flag_saysYes (d : Bool) (a : Option Str) : flag d a = saysYes d a := by
  cases a with
  | none => rfl
  | some v =>
    simp only [flag, saysYes, readYesNo]
    by_cases h : Py.lower v = "yes".toList
    · simp [-String.reduceToList, h]
    · rw [if_neg h, decide_eq_false h]; split <;> rfl

theorem readCount_number {attr : Option Str} {n : Int} (h : saysNumber attr n) (hn : n ≠ 0) :
    readCount attr = some n := by
  obtain ⟨v, rfl, h⟩ := h
  simp [readCount, readInteger, h, hn]

/-- What the label of a choice becomes. -/
theorem madeOf_choice {t : LabelThing} (ht : t = .simple ∨ t = .associable) {level : Nat} {l : Label}
    (hc : closeLabel (some t) false level l = .ok (some (.elt (madeOf (some t) false level l)))) :
    choiceId (madeOf (some t) false level l) = readIdent l.ident ∧
    choiceFixed (madeOf (some t) false level l) = some (!saysYes true l.rshuffle) ∧
    (LabelPure l → LabelP TypedPiece l → seen (madeOf (some t) false level l) = labelSeen l) := by
  unfold closeLabel at hc
  obtain ⟨a, _, hc⟩ := bind_ok hc
  rcases ht with rfl | rfl
  · simp only [Except.ok.injEq, Option.some.injEq, Made.elt.injEq] at hc
    rw [← hc]
    exact ⟨rfl, by simp only [choiceFixed, flag_saysYes], fun h1 h2 => by simp only [seen]; exact seen_labelKids _ _ _ h1 h2⟩
  · simp only [Except.ok.injEq, Option.some.injEq, Made.elt.injEq] at hc
    rw [← hc]
    exact ⟨rfl, by simp only [choiceFixed, flag_saysYes], fun h1 h2 => by simp only [seen]; exact seen_labelKids _ _ _ h1 h2⟩

theorem plain_response (ks : List FlowItem) : FlowsP PlainPiece ks → ∀ q ∈ responsesIn ks, ∀ i ∈ q.items,
    RespItemP PlainPiece i := by
  refine (FlowItem.rec (motive_1 := fun k => FlowP PlainPiece k → ∀ q ∈ responsesOf k, ∀ i ∈ q.items, RespItemP PlainPiece i)
    (motive_2 := fun ks => FlowsP PlainPiece ks → ∀ q ∈ responsesIn ks, ∀ i ∈ q.items, RespItemP PlainPiece i)
    ?_ ?_ ?_ ?_ ?_ (.flow none ks) : _)
  · intro cls kids ih hp q hq; exact ih hp q hq
  · intro m _ q hq; cases hq
  · intro q' hp q hq
    simp only [responsesOf, List.mem_singleton] at hq
    subst hq; exact hp
  · intro _ q hq; cases hq
  · intro k ks ih1 ih2 hp q hq
    rcases List.mem_append.1 hq with hq | hq
    · exact ih1 hp.1 q hq
    · exact ih2 hp.2 q hq

/-- The interaction made for a choice question, wherever it stands in the presentation. -/
theorem choice_interaction (ff : Bool) (kids : List FlowItem) (body : List Elt) (s : ItemSt)
    (h : presentation ff kids {} = .ok (body, s)) (hp : FlowsP PlainPiece kids) (q : Response)
    (hq : q ∈ responsesIn kids) (shuffle maxnumber : Option Str) (items : List RItem)
    (hr : rendersOf q.items = [(.choice shuffle maxnumber, items)])
    (hk : q.kind = .lid ∨ q.kind = .grp ∧ q.card ≠ .ordered) :
    ∃ (t : LabelThing) (f : List Elt → Inter) (level : Nat) (prompt : List Elt) (n : Str),
      choiceThing q.kind q.card (flag false shuffle) (readCount maxnumber) = some (t, f) ∧
      (t = .simple ∨ t = .associable) ∧
      (∀ l ∈ labelsOf items, closeLabel (some t) false level l = .ok (some (.elt (madeOf (some t) false level l)))) ∧
      (f ((labelsOf items).map (madeOf (some t) false level))).elt n prompt ∈ interactionsAll body ∧
      Item.getResponse s.vars (readIdent q.ident) = .ok (some n) := by
  obtain ⟨level, s1, s2, o, pre, post, new, g1, g2, g3, g4, _⟩ := ran_presentation kids good_init hp h q hq
  have hpq := plain_response kids hp q hq
  obtain ⟨r1, p, es, blanks, own, b1, b2, b3, b4, b5, b6, b7, b8, b9⟩ := response_one g1 hpq hr g2
  simp only [renderOne] at b5
  obtain ⟨x, hx, b5⟩ := bind_ok b5
  simp only [Except.ok.injEq] at b5
  subst b5
  unfold renderChoice at hx
  obtain ⟨c, hc, hx⟩ := bind_ok hx
  simp only [Except.ok.injEq] at hx
  have hsome : ∃ t, choiceThing q.kind q.card (flag false shuffle) (readCount maxnumber) = some t := by
    rcases hk with hk | ⟨hk, hcard⟩ <;> rw [hk]
    · cases q.card <;> exact ⟨_, rfl⟩
    · cases hcc : q.card with
      | ordered => exact absurd hcc hcard
      | single => exact ⟨_, rfl⟩
      | multiple => exact ⟨_, rfl⟩
  obtain ⟨⟨t, f⟩, ht⟩ := hsome
  rw [ht] at hc hx
  simp only [Option.map_some] at hc
  obtain ⟨l1, l2⟩ := collect_labels t false level items _ _ hc
  simp only [List.nil_append] at l2
  have hi : x.index = 0 := by
    have := b1.len
    simp only [List.length_nil] at this
    rw [← hx]
    simp only [appendAll_index, ← this]
  have hin : x.inter = some (f c.labels) := by rw [← hx]; simp only [appendAll_inter]
  obtain ⟨prompt, hint⟩ := closed_one b7 b6 (by rw [appendAll_index]; exact hi) (by rw [appendAll_inter]; exact hin)
  refine ⟨t, f, level, prompt, own.identifier, ht, (choiceThing_some ht []).1, l1, ?_, ?_⟩
  · rw [g4, hint, l2]; simp
  · have hg := g3.kept _ _ b6.name
    rw [getResponse_eq g3.good.inv, hg]

/-- A choice question asks for the same choices, in the same order, with the same right to be shuffled, and each shows
what its label shows. -/
theorem choices_kept_partial (ff : Bool) (kids : List FlowItem) (body : List Elt) (s : ItemSt)
    (h : presentation ff kids {} = .ok (body, s)) (hp : FlowsP PlainPiece kids) (q : Response)
    (hq : q ∈ responsesIn kids) (shuffle maxnumber : Option Str) (items : List RItem)
    (hr : rendersOf q.items = [(.choice shuffle maxnumber, items)])
    (hk : q.kind = .lid ∨ q.kind = .grp ∧ q.card ≠ .ordered) :
    ∃ e ∈ interactionsAll body, Item.getResponse s.vars (readIdent q.ident) = .ok (some (responseOf e)) ∧
      shuffled e = saysYes false shuffle ∧
      (choicesOf e).map choiceId = (labelsOf items).map (fun l => readIdent l.ident) ∧
      (choicesOf e).map choiceFixed = (labelsOf items).map (fun l => some (!saysYes true l.rshuffle)) ∧
      ((∀ l ∈ labelsOf items, LabelPure l ∧ LabelP TypedPiece l) →
        (choicesOf e).map seen = (labelsOf items).map labelSeen) := by
  obtain ⟨t, f, level, prompt, n, h1, h2, h3, h4, h5⟩ :=
    choice_interaction ff kids body s h hp q hq shuffle maxnumber items hr hk
  have hch : ∀ cs, choicesOf ((f cs).elt n prompt) = cs ∧ shuffled ((f cs).elt n prompt) = flag false shuffle := by
    intro cs
    unfold choiceThing at h1
    split at h1 <;> simp only [Option.some.injEq, Prod.mk.injEq, reduceCtorEq] at h1 <;> obtain ⟨rfl, rfl⟩ := h1 <;>
      exact ⟨rfl, rfl⟩
  refine ⟨_, h4, by rw [responseOf_elt]; exact h5, by rw [(hch _).2, flag_saysYes], ?_, ?_, ?_⟩
  · rw [(hch _).1, List.map_map]
    apply List.map_congr_left
    intro l hl; exact (madeOf_choice h2 (h3 l hl)).1
  · rw [(hch _).1, List.map_map]
    apply List.map_congr_left
    intro l hl; exact (madeOf_choice h2 (h3 l hl)).2.1
  · intro hpure
    rw [(hch _).1, List.map_map]
    apply List.map_congr_left
    intro l hl; exact (madeOf_choice h2 (h3 l hl)).2.2 (hpure l hl).1 (hpure l hl).2

/-- A choice question allows as many answers as the source, if it says how many or there can be only one. -/
theorem answers_allowed_partial (ff : Bool) (kids : List FlowItem) (body : List Elt) (s : ItemSt)
    (h : presentation ff kids {} = .ok (body, s)) (hp : FlowsP PlainPiece kids) (q : Response)
    (hq : q ∈ responsesIn kids) (shuffle maxnumber : Option Str) (items : List RItem)
    (hr : rendersOf q.items = [(.choice shuffle maxnumber, items)])
    (hk : q.kind = .lid ∨ q.kind = .grp) (hc : q.card = .single ∨ q.card = .multiple ∧ maxnumber ≠ none) :
    ∃ e ∈ interactionsAll body, Item.getResponse s.vars (readIdent q.ident) = .ok (some (responseOf e)) ∧
      Allows q.card maxnumber (maxAnswers e) := by
  have hno : q.card ≠ .ordered := by rcases hc with hc | ⟨hc, _⟩ <;> rw [hc] <;> simp
  obtain ⟨t, f, level, prompt, n, h1, h2, h3, h4, h5⟩ :=
    choice_interaction ff kids body s h hp q hq shuffle maxnumber items hr
      (by rcases hk with hk | hk; exact .inl hk; exact .inr ⟨hk, hno⟩)
  refine ⟨_, h4, by rw [responseOf_elt]; exact h5, ?_⟩
  have hmax : ∀ cs, maxAnswers ((f cs).elt n prompt) =
      if (readCount maxnumber).getD 1 = 0 then none else some ((readCount maxnumber).getD 1) := by
    intro cs
    unfold choiceThing at h1
    split at h1
    · rename_i he; exact absurd he hno
    · simp only [Option.some.injEq, Prod.mk.injEq] at h1; obtain ⟨rfl, rfl⟩ := h1; rfl
    · cases h1
    · simp only [Option.some.injEq, Prod.mk.injEq] at h1; obtain ⟨rfl, rfl⟩ := h1; rfl
    · cases h1
  rw [hmax]
  unfold Allows
  cases maxnumber with
  | none =>
    rcases hc with hc | ⟨_, hc⟩
    · simp [hc, readCount]
    · exact absurd rfl hc
  | some v =>
    intro m hm hm0
    rw [readCount_number hm hm0]
    simp [hm0]

/-! ## Examples and refutations -/

/-- A text. -/
def pTxt (t : String) : Material := { pieces := [.text none none t.toList] }
/-- A label with material. -/
def pLab (i t : String) : Label := { ident := i.toList, items := [.content (.mat (pTxt t))] }
/-- A label element. -/
def pLabel (i t : String) : RItem := .labels (.label (pLab i t))

/-- A choice question in a flow, with text around it, and a text with two blanks. -/
def pSample : List FlowItem :=
  [.flow none [.mat (pTxt "Which?"),
    .resp { kind := .lid, ident := "R".toList, card := .multiple, items := [.mat (pTxt "Choose:"),
      .render (.choice (some "Yes".toList) (some "2".toList))
        [.labels (.flow [.label (pLab "A" "one"), .label { pLab "B" "two" with rshuffle := some "No".toList }])]] }],
   .resp { kind := .str, ident := "S".toList, card := .ordered, items := [.render (.fib none none none none none none)
      [.mat (pTxt "to"), pLabel "1" "", .mat (pTxt "or"), .labels (.label { ident := "2".toList, items := [] })]] }]

/-- The presentation and what it shows. -/
def Shown (kids : List FlowItem) (now source : List Seen) : Prop :=
  (presentation false kids {}).toOption.map (fun r => seenAll r.1) = some now ∧ flowSeen kids = source

instance (kids : List FlowItem) (now source : List Seen) : Decidable (Shown kids now source) :=
  inferInstanceAs (Decidable (_ ∧ _))

/-- Is it a slider? -/
def isSlider : Elt → Bool
  | .slider .. => true
  | _ => false

/-- A text as it is seen. -/
def tx (t : String) : Seen := .text t.toList

/-- The sample is migrated, and shows what it showed. -/
theorem pSample_shown : Shown
    (pSample.map fun k => match k with
      | .resp q => .resp { q with items := [.render (.fib none none none none none none)
          [.mat (pTxt "to"), .labels (.label { ident := "1".toList, items := [] }), .mat (pTxt "or"),
           .labels (.label { ident := "2".toList, items := [] })]] }
      | k => k)
    [tx "Which?", tx "Choose:", tx "one", tx "two", tx "to", tx "or"]
    [tx "Which?", tx "Choose:", tx "one", tx "two", tx "to", tx "or"] := by
  decide +kernel

/-- The choice questions of the sample meet the hypotheses of the theorems above. -/
theorem pSample_hypotheses : FlowsP PlainPiece pSample ∧ (presentation false pSample {}).toOption.isSome = true ∧
    ∃ q ∈ responsesIn pSample, q.kind = .lid ∧ ∃ items, rendersOf q.items = [(.choice (some "Yes".toList) (some "2".toList), items)] ∧
      (labelsOf items).length = 2 := by
  refine ⟨?_, by decide +kernel, _, List.mem_cons_self, rfl, _, rfl, by decide +kernel⟩
  simp [pSample, FlowsP, FlowP, RespItemP, ItemsP, Mat, PlainPiece, pTxt, pLab, pLabel, matsOf, labelsOf,
    LabelTree.labels, LabelTree.labelsAll, LabelP, labelContents, MatFs, MatF]
  refine ⟨fun m => ⟨?_, ?_⟩, fun l => ⟨?_, ?_⟩⟩ <;> rintro rfl <;> simp [MatFs, MatF, Mat, PlainPiece]

/-- Text is lost: between labels, in a label with text and other material, in emphasised text of an unknown type, in a
fill-in without labels, and before the regions of an image that are to be put in order. -/
theorem material_kept_refuted :
    Shown [.resp { kind := .lid, ident := "R".toList, items := [.render (.choice none none)
        [pLabel "A" "one", .mat (pTxt "or"), pLabel "B" "two"]] }]
      [tx "one", tx "two"] [tx "one", tx "or", tx "two"] ∧
    Shown [.resp { kind := .lid, ident := "R".toList, items := [.render (.choice none none)
        [.labels (.label { ident := "A".toList, items := [.data "x = ".toList, .content (.mat (pTxt "one"))] })]] }]
      [] [tx "x =", tx "one"] ∧
    Shown [.mat { pieces := [.text none none "do ".toList, .emtextOther "not".toList] }] [tx "do "] [tx "do ", tx "not"] ∧
    Shown [.resp { kind := .str, ident := "R".toList, items := [.render (.fib none none none none none none)
        [.mat (pTxt "Name:")]] }] [] [tx "Name:"] ∧
    Shown [.resp { kind := .lid, ident := "R".toList, card := .ordered, items := [.mat (pTxt "Order:"),
        .render (.hotspot none) [.mat { pieces := [.image none (some "map.png".toList) none none] },
          .labels (.label { ident := "A".toList, rarea := some "rectangle".toList, items := [.data "0,0,9,9".toList] })]] }]
      [.media "map.png".toList] [tx "Order:", .media "map.png".toList, tx "0,0,9,9"] := by
  decide +kernel

/-- A slider for a number of the default type is bound to a response for identifiers. -/
theorem interactions_fit_refuted : (presentation false [.resp { kind := .num none, ident := "R".toList, items :=
      [.render (.slider none none none none none (some "No".toList)) []] }] {}).toOption.map (fun r =>
        ((interactionsAll r.1).map (fun e => (isSlider e, responseOf e)),
          r.2.decls.map fun d => (d.identifier, d.cardinality, d.baseType))) =
      some ([(true, "R".toList)], [("R".toList, "single".toList, "identifier".toList)]) ∧
    ∀ e, isSlider e = true → ¬ Suits e "single".toList "identifier".toList := by
  refine ⟨by decide +kernel, ?_⟩
  intro e he
  cases e <;> simp [isSlider] at he
  simp only [Suits]
  decide +kernel

/-- A question with several answers and no limit allows one answer only. -/
theorem answers_allowed_refuted : (presentation false [.resp { kind := .lid, ident := "R".toList, card := .multiple, items :=
      [.render (.choice none none) [pLabel "A" "one", pLabel "B" "two"]] }] {}).toOption.map (fun r =>
        (interactionsAll r.1).map maxAnswers) = some [some 1] ∧ ¬ Allows .multiple none (some 1) :=
  ⟨by decide +kernel, by simp [Allows]⟩

end Verif.Props
