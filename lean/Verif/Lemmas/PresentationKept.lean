import Verif.Lemmas.Presentation

/-!
# Lemmas: what the candidate sees of responses and presentations
-/

namespace Verif.Lemmas.Pres

open Verif Verif.Spec Verif.Pres
open Verif.ItemXml (Elt Decl StringAtts)

set_option linter.unusedVariables false

/-! ## Renderings -/

theorem seen_matElts (hot : Bool) (items : List RItem) (h : ∀ m ∈ matsOf items, Mat TypedPiece m) :
    seenAll (matElts hot items) = (matsOf items).flatMap matSeen := by
  unfold matElts
  generalize matsOf items = ms at h
  induction ms with
  | nil => simp [seenAll]
  | cons m ms ih =>
    simp only [List.flatMap_cons, seenAll_append]
    rw [seen_material hot m (h m (by simp)), ih fun x hx => h x (by simp [hx])]

/-- What the parts of a rendering show, without labels. -/
theorem itemsSeen_mats (items : List RItem) (h : ∀ l ∈ labelsOf items, labelSeen l = []) :
    items.flatMap renderItemSeen = (matsOf items).flatMap matSeen := by
  induction items with
  | nil => rfl
  | cons i is ih =>
    cases i with
    | mat m =>
      rw [labelsOf_cons_mat] at h
      simp [matsOf_cons_mat, renderItemSeen, ih h]
    | labels t =>
      rw [labelsOf_cons_labels] at h
      have h1 : t.labels.flatMap labelSeen = [] := by
        rw [List.flatMap_eq_nil_iff]; intro l hl; exact h l (List.mem_append_left _ hl)
      simp [matsOf_cons_labels, renderItemSeen, h1, ih fun l hl => h l (List.mem_append_right _ hl)]

theorem itemsSeen_labels (items : List RItem) (h : matsOf items = []) :
    items.flatMap renderItemSeen = (labelsOf items).flatMap labelSeen := by
  induction items with
  | nil => rfl
  | cons i is ih =>
    cases i with
    | mat m => rw [matsOf_cons_mat] at h; cases h
    | labels t =>
      rw [matsOf_cons_labels] at h
      simp [labelsOf_cons_labels, renderItemSeen, ih h]

/-- The choices made for labels show what the labels show. -/
theorem seen_choices (t : LabelThing) (ht : t = .simple ∨ t = .associable) (level : Nat) (ls : List Label)
    (hc : ∀ l ∈ ls, closeLabel (some t) false level l = .ok (some (.elt (madeOf (some t) false level l))))
    (hp : ∀ l ∈ ls, LabelPure l) (hty : ∀ l ∈ ls, LabelP TypedPiece l) :
    seenAll (ls.map (madeOf (some t) false level)) = ls.flatMap labelSeen := by
  induction ls with
  | nil => simp [seenAll]
  | cons l ls ih =>
    have h1 := hc l (by simp)
    have h2 : seen (madeOf (some t) false level l) = labelSeen l := by
      unfold closeLabel at h1
      obtain ⟨a, _, h1⟩ := bind_ok h1
      rcases ht with rfl | rfl
      · simp only [Except.ok.injEq, Option.some.injEq, Made.elt.injEq] at h1
        rw [← h1]; simp only [seen]
        exact seen_labelKids _ _ _ (hp l (by simp)) (hty l (by simp))
      · simp only [Except.ok.injEq, Option.some.injEq, Made.elt.injEq] at h1
        rw [← h1]; simp only [seen]
        exact seen_labelKids _ _ _ (hp l (by simp)) (hty l (by simp))
    simp only [List.map_cons, seenAll, List.flatMap_cons, h2]
    rw [ih (fun x hx => hc x (by simp [hx])) (fun x hx => hp x (by simp [hx])) (fun x hx => hty x (by simp [hx]))]

theorem collect_seen (t : LabelThing) (ht : t = .simple ∨ t = .associable) (level : Nat) (items : List RItem)
    (hk : ChoiceKept items) (hty : ItemsP TypedPiece items) (c : RenderSt)
    (h : collect (some t) false level items {} = .ok c) :
    seenAll c.pre ++ seenAll c.labels ++ seenAll c.post = items.flatMap renderItemSeen := by
  have hcl := (collect_labels t false level items _ _ h).1
  obtain ⟨a, b, d, rfl, ha, hd, hb, h1, h2, h3⟩ := collect_framed t false level items hk.1 c h
  have hls : labelsOf (a ++ b ++ d) = labelsOf b := by simp [labelsOf_append, ha, hd]
  have hms : matsOf (a ++ b ++ d) = matsOf a ++ matsOf d := by simp [matsOf_append, hb]
  obtain ⟨hm, hl⟩ := hty
  rw [hls] at hcl hl
  rw [hms] at hm
  have hpu := hk.2
  rw [hls] at hpu
  have ea : a.flatMap renderItemSeen = (matsOf a).flatMap matSeen := itemsSeen_mats a (by rw [ha]; simp)
  have ed : d.flatMap renderItemSeen = (matsOf d).flatMap matSeen := itemsSeen_mats d (by rw [hd]; simp)
  have sa : seenAll (matElts false a) = (matsOf a).flatMap matSeen :=
    seen_matElts false a fun m hm' => hm m (List.mem_append_left _ hm')
  have sd : seenAll (matElts false d) = (matsOf d).flatMap matSeen :=
    seen_matElts false d fun m hm' => hm m (List.mem_append_right _ hm')
  simp only [List.flatMap_append, ea, ed, itemsSeen_labels b hb]
  rw [h2, seen_choices t ht level _ hcl hpu hl]
  by_cases hbn : labelsOf b = []
  · simp only [hbn, List.flatMap_nil, List.append_nil]
    rw [← seenAll_append, h1, seenAll_append, sa, sd]
  · obtain ⟨e1, e2⟩ := h3 hbn
    rw [e1, e2, sa, sd]

/-! ## Responses -/

/-- What a response shows as it stands. -/
def rSeen (r : RespSt) : List Seen :=
  seenAll r.pre ++ (match r.inter with | none => [] | some i => seen (i.elt [] [])) ++ seenAll r.post

/-- An interaction that shows its prompt. -/
def Prompts : Inter → Prop
  | .graphicOrder .. => False
  | _ => True

theorem seen_elt (i : Inter) (h : Prompts i) (n : Str) (p : List Elt) (hb : i.isBlock = false → p = []) :
    seen (i.elt n p) = seenAll p ++ seen (i.elt [] []) := by
  cases i with
  | textEntry => simp [Inter.elt, seen, seenAll, hb rfl]
  | graphicOrder => exact absurd h (by simp [Prompts])
  | _ => simp [Inter.elt, seen, seenAll]

/-- The state of a response while its contents are read. -/
structure RInv (r : RespSt) : Prop where
  post : r.inter = none → r.post = []
  prompts : ∀ i, r.inter = some i → Prompts i
  index : r.index ≠ 0 → r.inter = none

theorem appendAll_eq (es : List Elt) : ∀ r : RespSt, r.appendAll es =
    if r.inter.isSome then { r with post := r.post ++ es } else { r with pre := r.pre ++ es } := by
  induction es with
  | nil => intro r; simp [RespSt.appendAll]
  | cons e es ih =>
    intro r
    simp only [RespSt.appendAll, List.foldl_cons] at ih ⊢
    rw [ih, RespSt.append]
    by_cases hr : r.inter.isSome = true
    · simp [hr]
    · simp [hr]

theorem appendAll_inter (es : List Elt) (r : RespSt) : (r.appendAll es).inter = r.inter := by
  rw [appendAll_eq]; split <;> rfl
theorem appendAll_index (es : List Elt) (r : RespSt) : (r.appendAll es).index = r.index := by
  rw [appendAll_eq]; split <;> rfl
theorem appendAll_base (es : List Elt) (r : RespSt) : (r.appendAll es).baseType = r.baseType := by
  rw [appendAll_eq]; split <;> rfl

theorem appendAll_inv (es : List Elt) (r : RespSt) (h : RInv r) : RInv (r.appendAll es) := by
  rw [appendAll_eq]
  split
  · rename_i hs
    exact ⟨(by intro hn; simp only at hn; rw [hn] at hs; cases hs), h.prompts, h.index⟩
  · exact ⟨h.post, h.prompts, h.index⟩

theorem appendAll_seen (es : List Elt) (r : RespSt) (h : RInv r) : rSeen (r.appendAll es) = rSeen r ++ seenAll es := by
  rw [appendAll_eq]
  split
  · simp [rSeen, seenAll_append]
  · rename_i hs
    have hn : r.inter = none := by simpa using hs
    simp [rSeen, seenAll_append, hn, h.post hn, seenAll]

theorem seen_inter_choices (f : List Elt → Inter) (cs : List Elt)
    (h : f = .order sh ∨ f = .choice cls sh mx ∨ f = .associate sh mx) :
    seen ((f cs).elt [] []) = seenAll cs ∧ Prompts (f cs) := by
  rcases h with rfl | rfl | rfl <;> simp [Inter.elt, seen, seenAll, Prompts]

theorem choiceThing_some {kind : RKind} {card : Card} {sh : Bool} {mx : Option Int} {t : LabelThing × (List Elt → Inter)}
    (h : choiceThing kind card sh mx = some t) (cs : List Elt) :
    (t.1 = .simple ∨ t.1 = .associable) ∧ seen ((t.2 cs).elt [] []) = seenAll cs ∧ Prompts (t.2 cs) := by
  unfold choiceThing at h
  split at h <;> simp only [Option.some.injEq, reduceCtorEq] at h <;> subst h <;>
    simp [Inter.elt, seen, seenAll, Prompts]

/-- Keeping the state of a response whose rendering only adds what it shows. -/
theorem frame_seen (r : RespSt) (hr : RInv r) (hn : r.inter = none) (hi : r.index = 0) (i : Inter) (d : Option FloatVal)
    (hp : Prompts i) (pre post : List Elt) :
    RInv (({ r.appendAll pre with inter := some i, default := d } : RespSt).appendAll post) ∧
    (({ r.appendAll pre with inter := some i, default := d } : RespSt).appendAll post).index = 0 ∧
    rSeen (({ r.appendAll pre with inter := some i, default := d } : RespSt).appendAll post) =
      rSeen r ++ (seenAll pre ++ seen (i.elt [] []) ++ seenAll post) := by
  have h1 : RInv ({ r.appendAll pre with inter := some i, default := d } : RespSt) := by
    refine ⟨by simp, by intro j hj; simp only [Option.some.injEq] at hj; rw [← hj]; exact hp, ?_⟩
    simp [appendAll_index, hi]
  refine ⟨appendAll_inv _ _ h1, by rw [appendAll_index]; exact (appendAll_index _ _).trans hi, ?_⟩
  rw [appendAll_seen _ _ h1]
  have h2 := appendAll_eq pre r
  simp only [hn, Option.isSome_none, Bool.false_eq_true, if_false] at h2
  rw [h2]
  simp [rSeen, hn, hr.post hn, seenAll_append, seenAll]

/-- What a rendering must do to a response that has no interaction yet. -/
def Adds (items : List RItem) (r r' : RespSt) : Prop :=
  RInv r' ∧ rSeen r' = rSeen r ++ items.flatMap renderItemSeen

theorem noLabels_seen (thing : Option LabelThing) (level : Nat) (items : List RItem) (hl : labelsOf items = [])
    (hty : ItemsP TypedPiece items) (c : RenderSt) (h : collect thing false level items {} = .ok c) :
    c.labels = [] ∧ c.post = [] ∧ seenAll c.pre = items.flatMap renderItemSeen := by
  rw [collect_noLabels _ _ _ _ _ hl, Except.ok.injEq, foldl_append] at h
  subst h
  simp only [List.isEmpty_nil, if_true, List.nil_append, true_and]
  rw [seen_matElts _ _ hty.1, itemsSeen_mats _ (by rw [hl]; simp)]

theorem renderChoice_adds {kind : RKind} {card : Card} {level : Nat} {shuffle maxnumber : Option Str}
    {items : List RItem} {r r' : RespSt} (hr : RInv r) (hn : r.inter = none) (hi : r.index = 0)
    (hk : RenderKept kind card (.choice shuffle maxnumber) items) (hty : ItemsP TypedPiece items)
    (h : renderChoice kind card level shuffle maxnumber items r = .ok r') : Adds items r r' := by
  unfold renderChoice at h
  obtain ⟨c, hc, h⟩ := bind_ok h
  simp only [Except.ok.injEq] at h
  cases ht : choiceThing kind card (flag false shuffle) (readCount maxnumber) with
  | none =>
    have hl : labelsOf items = [] := by
      cases kind with
      | lid => cases card <;> cases ht
      | grp => cases card <;> simp_all [choiceThing, RenderKept]
      | xy => exact hk
      | str => exact hk
      | num => exact hk
    rw [ht] at hc h
    obtain ⟨e1, e2, e3⟩ := noLabels_seen _ level items hl hty c hc
    simp only at h
    subst h
    refine ⟨appendAll_inv _ _ (appendAll_inv _ _ hr), ?_⟩
    rw [appendAll_seen _ _ (appendAll_inv _ _ hr), appendAll_seen _ _ hr, e2, e3]
    simp [seenAll]
  | some t =>
    have hck : ChoiceKept items := by
      cases kind with
      | lid => exact hk
      | grp => exact hk.2
      | xy => cases card <;> cases ht
      | str => cases card <;> cases ht
      | num => cases card <;> cases ht
    obtain ⟨h1, h2, h3⟩ := choiceThing_some ht c.labels
    rw [ht] at hc h
    have hs := collect_seen t.1 h1 level items hck hty c hc
    simp only at h
    have hf := frame_seen r hr hn hi (t.2 c.labels) (r.appendAll c.pre).default h3 c.pre c.post
    rw [h] at hf
    refine ⟨hf.1, ?_⟩
    rw [hf.2.2, h2, hs]

theorem renderSlider_adds {kind : RKind} {card : Card} {level : Nat} {o : Option Str}
    {lo up st sv : Option (Option FloatVal)} {sl : Option Str}
    {items : List RItem} {r r' : RespSt} (hr : RInv r) (hn : r.inter = none) (hi : r.index = 0)
    (hk : RenderKept kind card (.slider o lo up st sv sl) items) (hty : ItemsP TypedPiece items)
    (h : renderSlider kind card level o lo up st sv sl items r = .ok r') : Adds items r r' := by
  unfold renderSlider at h
  obtain ⟨th, hth, h⟩ := bind_ok h
  obtain ⟨c, hc, h⟩ := bind_ok h
  obtain ⟨q, hq, h⟩ := bind_ok h
  simp only [Except.ok.injEq] at h
  subst h
  have hnone : ∀ (x : Option LabelThing), th.2 = x → labelsOf items = [] → th.1 = false → Adds items r (q.appendAll c.post) := by
    intro x hx hl hf
    obtain ⟨e1, e2, e3⟩ := noLabels_seen _ level items hl hty c hc
    simp only [hf, Bool.false_eq_true, if_false, Except.ok.injEq] at hq
    subst hq
    refine ⟨appendAll_inv _ _ (appendAll_inv _ _ hr), ?_⟩
    rw [appendAll_seen _ _ (appendAll_inv _ _ hr), appendAll_seen _ _ hr, e2, e3]
    simp [seenAll]
  have hsome : ∀ i d, q = { r.appendAll c.pre with inter := some i, default := d } → Prompts i →
      seenAll c.pre ++ seen (i.elt [] []) ++ seenAll c.post = items.flatMap renderItemSeen →
      Adds items r (q.appendAll c.post) := by
    intro i d hq hp hs
    have hf := frame_seen r hr hn hi i d hp c.pre c.post
    rw [hq]
    exact ⟨hf.1, by rw [hf.2.2, hs]⟩
  cases kind with
  | lid =>
    cases card with
    | single =>
      simp only [sliderThing, Except.ok.injEq] at hth
      subst hth
      have hs := collect_seen .simple (.inl rfl) level items hk hty c hc
      simp only [if_true] at hq
      obtain ⟨i, hi', hq⟩ := bind_ok hq
      simp only [sliderInter, Except.ok.injEq] at hi' hq
      subst hi'
      exact hsome _ _ hq.symm trivial (by simpa [Inter.elt, seen, seenAll] using hs)
    | multiple => simp only [sliderThing, Except.ok.injEq] at hth; subst hth; exact hnone _ rfl hk rfl
    | ordered => simp only [sliderThing, Except.ok.injEq] at hth; subst hth; exact hnone _ rfl hk rfl
  | num nt =>
    have hl : labelsOf items = [] := hk
    cases card with
    | single =>
      simp only [sliderThing] at hth
      split at hth
      · cases hth
      · simp only [Except.ok.injEq] at hth
        subst hth
        obtain ⟨e1, e2, e3⟩ := noLabels_seen _ level items hl hty c hc
        simp only [if_true] at hq
        obtain ⟨i, hi', hq⟩ := bind_ok hq
        simp only [sliderInter] at hi'
        cases sl with
        | none => cases hi'
        | some v =>
          simp only [Except.ok.injEq] at hi'
          subst hi'
          exact hsome _ _ (Except.ok.inj hq).symm trivial (by simp [Inter.elt, seen, seenAll, e2, e3])
    | multiple => simp only [sliderThing, Except.ok.injEq] at hth; subst hth; exact hnone _ rfl hk rfl
    | ordered => simp only [sliderThing, Except.ok.injEq] at hth; subst hth; exact hnone _ rfl hk rfl
  | xy => simp only [sliderThing, Except.ok.injEq] at hth; subst hth; exact hnone _ rfl hk rfl
  | str => simp only [sliderThing, Except.ok.injEq] at hth; subst hth; exact hnone _ rfl hk rfl
  | grp => simp only [sliderThing, Except.ok.injEq] at hth; subst hth; exact hnone _ rfl hk rfl

/-! ### Text to fill in -/

/-- What a child of a `render_fib` shows. -/
def childSeen : FibChild → List Seen
  | .elt e => seen e
  | .blank _ => []

theorem childSeen_elts (es : List Elt) : (es.map Made.elt).flatMap childSeen = seenAll es := by
  induction es with
  | nil => simp [seenAll]
  | cons e es ih => simp [seenAll, childSeen, ih]

theorem fibLabels_ok (level : Nat) (ls : List Label) : ∀ cs, fibLabels level ls = .ok cs →
    cs = ls.map fun l => .blank (readIdent l.ident) := by
  induction ls with
  | nil => intro cs h; simp only [fibLabels, Except.ok.injEq] at h; simp [← h]
  | cons l ls ih =>
    intro cs h
    simp only [fibLabels] at h
    obtain ⟨m, hm, h⟩ := bind_ok h
    obtain ⟨r, hr, h⟩ := bind_ok h
    unfold closeLabel at hm
    obtain ⟨_, _, hm⟩ := bind_ok hm
    simp only [Except.ok.injEq] at hm h
    subst hm; subst h
    simp [ih r hr]

/-- The children of a `render_fib`. -/
theorem fibChildren_eq (level : Nat) (items : List RItem) : ∀ cs, fibChildren level items = .ok cs →
    cs = items.flatMap fun i => match i with
      | .mat m => (materialElts false m).map .elt
      | .labels t => t.labels.map fun l => .blank (readIdent l.ident) := by
  induction items with
  | nil => intro cs h; simp only [fibChildren, Except.ok.injEq] at h; simp [← h]
  | cons i is ih =>
    intro cs h
    cases i with
    | mat m =>
      simp only [fibChildren] at h
      obtain ⟨r, hr, h⟩ := bind_ok h
      simp only [Except.ok.injEq] at h
      subst h
      simp [ih r hr]
    | labels t =>
      simp only [fibChildren] at h
      obtain ⟨a, ha, h⟩ := bind_ok h
      obtain ⟨r, hr, h⟩ := bind_ok h
      simp only [Except.ok.injEq] at h
      subst h
      simp [ih r hr, fibLabels_ok level _ _ ha]

theorem fibChildren_seen (level : Nat) (items : List RItem) (hty : ∀ m ∈ matsOf items, Mat TypedPiece m)
    (cs : List FibChild) (h : fibChildren level items = .ok cs) :
    cs.flatMap childSeen = (matsOf items).flatMap matSeen ∧ cs.countP Made.isBlank = (labelsOf items).length := by
  rw [fibChildren_eq level items cs h]
  clear h
  induction items with
  | nil => simp [matsOf, labelsOf]
  | cons i is ih =>
    cases i with
    | mat m =>
      rw [matsOf_cons_mat] at hty
      obtain ⟨h1, h2⟩ := ih fun x hx => hty x (by simp [hx])
      have hz : ((materialElts false m).map Made.elt).countP Made.isBlank = 0 := by
        rw [List.countP_eq_zero]
        intro x hx
        obtain ⟨e, _, rfl⟩ := List.mem_map.1 hx
        simp [Made.isBlank]
      rw [matsOf_cons_mat, labelsOf_cons_mat]
      simp only [List.flatMap_cons, List.flatMap_append, List.countP_append, childSeen_elts, hz, h1, h2, Nat.zero_add,
        and_true]
      rw [seen_material false m (hty m (by simp))]
    | labels t =>
      rw [matsOf_cons_labels] at hty
      obtain ⟨h1, h2⟩ := ih hty
      have hz : (t.labels.map fun l => Made.blank (readIdent l.ident)).flatMap childSeen = [] := by
        rw [List.flatMap_eq_nil_iff]
        intro x hx
        obtain ⟨e, _, rfl⟩ := List.mem_map.1 hx
        rfl
      have hc : (t.labels.map fun l => Made.blank (readIdent l.ident)).countP Made.isBlank = t.labels.length := by
        rw [List.countP_map]
        have : (Made.isBlank ∘ fun l : Label => Made.blank (readIdent l.ident)) = fun _ => true := by
          funext l; rfl
        rw [this]; simp
      rw [matsOf_cons_labels, labelsOf_cons_labels]
      simp only [List.flatMap_cons, List.flatMap_append, List.countP_append, hz, hc, h1, h2, List.nil_append,
        List.length_append, and_true]

theorem fibSingle_seen (i : Inter) (hi : seen (i.elt [] []) = []) (hp : Prompts i) (cs : List FibChild) :
    ∀ r : RespSt, RInv r → r.index = 0 → (∀ j, r.inter = some j → j = i) →
      RInv (fibSingle i cs r) ∧ rSeen (fibSingle i cs r) = rSeen r ++ cs.flatMap childSeen := by
  induction cs with
  | nil => intro r hr _ _; exact ⟨hr, by simp [fibSingle]⟩
  | cons c cs ih =>
    intro r hr hx hj
    cases c with
    | blank n =>
      have hr' : RInv { r with inter := some i } :=
        ⟨by simp, by intro j hj; simp only [Option.some.injEq] at hj; rw [← hj]; exact hp, by simp [hx]⟩
      obtain ⟨h1, h2⟩ := ih { r with inter := some i } hr' hx (by intro j hj; simpa using hj.symm)
      refine ⟨h1, ?_⟩
      simp only [fibSingle, List.flatMap_cons, childSeen, List.nil_append]
      rw [h2]
      congr 1
      unfold rSeen
      simp only [hi]
      cases hri : r.inter with
      | none => rfl
      | some j => simp only [hj j hri, hi]
    | elt e =>
      have he : r.append e = r.appendAll [e] := rfl
      obtain ⟨h1, h2⟩ := ih (r.append e) (by rw [he]; exact appendAll_inv _ _ hr) (by rw [he, appendAll_index]; exact hx)
        (by rw [he, appendAll_inter]; exact hj)
      refine ⟨h1, ?_⟩
      simp only [fibSingle, List.flatMap_cons, childSeen]
      rw [h2, he, appendAll_seen _ _ hr]
      simp [seenAll]

theorem fibIndexed_seen (ident : Str) (i : Inter) (hi : ∀ n, seen (i.elt n []) = []) (cs : List FibChild) :
    ∀ (r : RespSt) (s : ItemSt) r' s', r.inter = none → r.post = [] → fibIndexed ident i cs r s = .ok (r', s') →
      r'.inter = none ∧ r'.post = [] ∧ rSeen r' = rSeen r ++ cs.flatMap childSeen := by
  induction cs with
  | nil =>
    intro r s r' s' hn hp h
    simp only [fibIndexed, Except.ok.injEq, Prod.mk.injEq] at h
    rw [← h.1]
    exact ⟨hn, hp, by simp⟩
  | cons c cs ih =>
    intro r s r' s' hn hp h
    cases c with
    | blank n =>
      simp only [fibIndexed] at h
      obtain ⟨s1, _, h⟩ := bind_ok h
      obtain ⟨b, _, h⟩ := bind_ok h
      have := ih _ _ _ _ (by simp [RespSt.append, hn]) (by simp [RespSt.append, hn, hp]) h
      refine ⟨this.1, this.2.1, ?_⟩
      rw [this.2.2]
      simp [RespSt.append, hn, hp, rSeen, seenAll_append, seenAll, hi, childSeen]
    | elt e =>
      simp only [fibIndexed] at h
      have := ih _ _ _ _ (by simp [RespSt.append, hn]) (by simp [RespSt.append, hn, hp]) h
      refine ⟨this.1, this.2.1, ?_⟩
      rw [this.2.2]
      simp [RespSt.append, hn, hp, rSeen, seenAll_append, seenAll, childSeen]

theorem renderFib_adds {ff : Bool} {kind : RKind} {card : Card} {ident : Str} {level : Nat}
    {ft ro co mc pr mx : Option Str} {items : List RItem} {r r' : RespSt} {s s' : ItemSt}
    (hr : RInv r) (hn : r.inter = none) (hi : r.index = 0)
    (hk : RenderKept kind card (.fib ft ro co mc pr mx) items) (hty : ItemsP TypedPiece items)
    (h : renderFib ff kind card ident level ft ro co mc pr mx items r s = .ok (r', s')) : Adds items r r' := by
  unfold renderFib at h
  obtain ⟨t, ht, h⟩ := bind_ok h
  obtain ⟨cs, hcs, h⟩ := bind_ok h
  obtain ⟨h1, h2⟩ := fibChildren_seen level items hty.1 cs hcs
  have hseen : items.flatMap renderItemSeen = cs.flatMap childSeen := by rw [h1]; exact itemsSeen_mats items hk.1
  have hr2 : RInv { r with baseType := t.2 } := ⟨hr.post, hr.prompts, hr.index⟩
  simp only at h
  split at h
  · split at h
    · simp only [Except.ok.injEq, Prod.mk.injEq] at h
      obtain ⟨h3, h4⟩ := fibSingle_seen (.textEntry (fibClass pr) (fibAtts t.1 (fibLength ro co mc)))
        (by simp [Inter.elt, seen]) trivial cs { r with baseType := t.2 } hr2 hi (by simp [hn])
      rw [h.1] at h3 h4
      refine ⟨h3, ?_⟩
      rw [h4, hseen]; rfl
    · obtain ⟨h3, h4, h5⟩ := fibIndexed_seen ident (.textEntry (fibClass pr) (fibAtts t.1 (fibLength ro co mc)))
        (by simp [Inter.elt, seen]) cs _ _ _ _ (by simpa using hn) (by simpa using hr.post hn) h
      exact ⟨⟨fun _ => h4, by simp [h3], fun _ => h3⟩, by rw [h5, hseen]; rfl⟩
  · rename_i hc
    simp only [Except.ok.injEq, Prod.mk.injEq] at h
    have hz : cs.flatMap childSeen = [] := by
      by_cases hl : cs.countP Made.isBlank = 0
      · rw [h1]
        refine hk.2 ?_
        rw [h2] at hl
        exact List.length_eq_zero_iff.1 hl
      · have hle : cs.length ≤ cs.countP Made.isBlank := by
          rcases Nat.lt_or_ge (cs.countP Made.isBlank) cs.length with hlt | hge
          · exact absurd ⟨hl, hlt⟩ hc
          · exact hge
        have hall : cs.countP Made.isBlank = cs.length := Nat.le_antisymm List.countP_le_length hle
        rw [List.countP_eq_length] at hall
        rw [List.flatMap_eq_nil_iff]
        intro x hx
        have := hall x hx
        cases x with
        | blank => rfl
        | elt e => simp [Made.isBlank] at this
    rw [← h.1]
    refine ⟨⟨by simp, ?_, by simp [hi]⟩, ?_⟩
    · intro j hj
      simp only [Option.some.injEq] at hj
      rw [← hj]; trivial
    · rw [hseen, hz]
      simp [rSeen, hn, Inter.elt, seen, seenAll]

/-! ### Whole responses -/

theorem respItems_mats (ff : Bool) (kind : RKind) (card : Card) (ident : Str) (level : Nat) (is : List RespItem)
    (hc : is.countP (fun i => match i with | .mat _ => false | .render .. => true) = 0)
    (hty : ∀ i ∈ is, RespItemP TypedPiece i) :
    ∀ r s r' s', RInv r → respItems ff kind card ident level is r s = .ok (r', s') →
      RInv r' ∧ rSeen r' = rSeen r ++ is.flatMap respItemSeen := by
  induction is with
  | nil =>
    intro r s r' s' hr h
    simp only [respItems, Except.ok.injEq, Prod.mk.injEq] at h
    rw [← h.1]; exact ⟨hr, by simp⟩
  | cons i is ih =>
    intro r s r' s' hr h
    cases i with
    | mat m =>
      simp only [respItems] at h
      have hm : Mat TypedPiece m := hty (.mat m) (by simp)
      obtain ⟨h1, h2⟩ := ih (by simpa using hc) (fun x hx => hty x (by simp [hx])) _ _ _ _ (appendAll_inv _ _ hr) h
      refine ⟨h1, ?_⟩
      rw [h2, appendAll_seen _ _ hr, seen_material false m hm]
      simp [respItemSeen]
    | render k items => simp at hc

theorem respItems_seen (ff : Bool) (kind : RKind) (card : Card) (ident : Str) (level : Nat) (is : List RespItem)
    (hc : is.countP (fun i => match i with | .mat _ => false | .render .. => true) ≤ 1)
    (hk : ∀ k items, RespItem.render k items ∈ is → RenderKept kind card k items)
    (hty : ∀ i ∈ is, RespItemP TypedPiece i) :
    ∀ r s r' s', RInv r → r.inter = none → r.index = 0 → respItems ff kind card ident level is r s = .ok (r', s') →
      RInv r' ∧ rSeen r' = rSeen r ++ is.flatMap respItemSeen := by
  induction is with
  | nil =>
    intro r s r' s' hr _ _ h
    simp only [respItems, Except.ok.injEq, Prod.mk.injEq] at h
    rw [← h.1]; exact ⟨hr, by simp⟩
  | cons i is ih =>
    intro r s r' s' hr hn hi h
    cases i with
    | mat m =>
      simp only [respItems] at h
      have hm : Mat TypedPiece m := hty (.mat m) (by simp)
      obtain ⟨h1, h2⟩ := ih (by simpa using hc) (fun k items hx => hk k items (by simp [hx]))
        (fun x hx => hty x (by simp [hx])) _ _ _ _ (appendAll_inv _ _ hr) (by rw [appendAll_inter]; exact hn)
        (by rw [appendAll_index]; exact hi) h
      refine ⟨h1, ?_⟩
      rw [h2, appendAll_seen _ _ hr, seen_material false m hm]
      simp [respItemSeen]
    | render k items =>
      simp only [respItems] at h
      obtain ⟨q, hq, h⟩ := bind_ok h
      have hkk := hk k items (by simp)
      have hit : ItemsP TypedPiece items := hty (.render k items) (by simp)
      have hadd : Adds items r q.1 := by
        unfold renderOne at hq
        cases k with
        | choice sh mx =>
          simp only at hq
          obtain ⟨x, hx, hq⟩ := bind_ok hq
          simp only [Except.ok.injEq] at hq
          rw [← hq]; exact renderChoice_adds hr hn hi hkk hit hx
        | hotspot mx => exact absurd hkk (by simp [RenderKept])
        | slider o lo up st sv sl =>
          simp only at hq
          obtain ⟨x, hx, hq⟩ := bind_ok hq
          simp only [Except.ok.injEq] at hq
          rw [← hq]; exact renderSlider_adds hr hn hi hkk hit hx
        | fib ft ro co mc pr mx =>
          simp only at hq
          exact renderFib_adds hr hn hi hkk hit (s' := q.2) hq
      have hc' : is.countP (fun i => match i with | .mat _ => false | .render .. => true) = 0 := by
        simp only [List.countP_cons] at hc
        simp only [if_true] at hc
        omega
      obtain ⟨h1, h2⟩ := respItems_mats ff kind card ident level is hc' (fun x hx => hty x (by simp [hx])) _ _ _ _
        hadd.1 h
      refine ⟨h1, ?_⟩
      rw [h2, hadd.2]
      simp [respItemSeen]

theorem closeResponse_seen {card : Card} {ident : Str} {r : RespSt} {s s' : ItemSt} {out : List Elt} (hr : RInv r)
    (h : closeResponse card ident r s = .ok (out, s')) : seenAll out = rSeen r := by
  unfold closeResponse at h
  split at h
  · rename_i hi
    obtain ⟨s1, _, h⟩ := bind_ok h
    obtain ⟨o, _, h⟩ := bind_ok h
    obtain ⟨n, _, h⟩ := bind_ok h
    simp only [Except.ok.injEq, Prod.mk.injEq] at h
    rw [← h.1, seenAll_append]
    simp [rSeen, hr.index hi]
  · obtain ⟨s1, _, h⟩ := bind_ok h
    split at h
    · rename_i i hri
      obtain ⟨b, _, h⟩ := bind_ok h
      simp only [Except.ok.injEq, Prod.mk.injEq] at h
      rw [← h.1]
      have hb : i.isBlock = false → (if isPrompt r.inter r.pre = true then [Elt.prompt r.pre] else []) = [] := by
        intro hf
        rw [hri]
        simp [isPrompt, hf]
      simp only [seenAll_append, seenAll, List.append_nil]
      rw [seen_elt i (hr.prompts i hri) b.1 _ hb]
      simp only [rSeen, hri]
      split
      · simp [seenAll, seen]
      · simp [seenAll]
    · rename_i hri
      simp only [Except.ok.injEq, Prod.mk.injEq] at h
      rw [← h.1, seenAll_append]
      simp [rSeen, hri]

/-- What a response shows is kept. -/
theorem response_seen {ff : Bool} {level : Nat} {q : Response} {s s' : ItemSt} {out : List Elt} (hk : RespKept q)
    (hty : ∀ i ∈ q.items, RespItemP TypedPiece i) (h : response ff level q s = .ok (out, s')) :
    seenAll out = q.items.flatMap respItemSeen := by
  unfold response at h
  obtain ⟨r, hr, h⟩ := bind_ok h
  obtain ⟨h1, h2⟩ := respItems_seen ff q.kind q.card _ level q.items hk.1 hk.2 hty _ _ r.1 r.2
    ⟨by simp, by simp, by simp⟩ rfl rfl hr
  rw [closeResponse_seen h1 h, h2]
  simp [rSeen, seenAll]

end Verif.Lemmas.Pres
