import Verif.Props.PresentationMore

/-!
# C102: what can go wrong with a presentation

The only failures of a presentation are those the converter reports itself, when each rendering is one it was written
for.
-/

set_option linter.unusedVariables false

namespace Verif.Props
open Verif Verif.Spec Verif.Pres Verif.Lemmas.Pres
open Verif.ItemXml (Elt Decl XExpr Rule)
open Verif.Dict (get)

/-- The only failure is the one of the converter's own checks. -/
def OnlyQ {α} (x : Except Err α) : Prop := ∀ e, x = .error e → e = .qtiException

theorem onlyQ_ok {α} (a : α) : OnlyQ (.ok a : Except Err α) := fun e h => by cases h

theorem onlyQ_bind {α β} {x : Except Err α} {f : α → Except Err β} (hx : OnlyQ x) (hf : ∀ a, x = .ok a → OnlyQ (f a)) :
    OnlyQ (x >>= f) := by
  cases x with
  | error e => intro e' h; simp only [Bind.bind, Except.bind, Except.error.injEq] at h; exact h ▸ hx e rfl
  | ok a => exact hf a rfl

theorem onlyQ_ite {α} (c : Prop) [Decidable c] (a b : α) :
    ∃ t, (if c then .ok a else .ok b : Except Err α) = .ok t := by
  split <;> exact ⟨_, rfl⟩

theorem chooseName_onlyQ (s : Item.St) (i : Str) : OnlyQ (Item.chooseName s i) := by
  have hl : ∀ fuel k base e, Item.uniqueLoop s.variables base fuel k = .error e → e = .qtiException := by
    intro fuel
    induction fuel with
    | zero => intro k b e h; simp [Item.uniqueLoop] at h; exact h.symm
    | succ n ih =>
      intro k b e h
      simp only [Item.uniqueLoop] at h
      split at h
      · exact ih _ _ _ h
      · cases h
  intro e h
  unfold Item.chooseName at h
  split at h
  · exact hl _ _ _ _ h
  · cases h

theorem declareResponse_onlyQ {s : Item.St} (hs : ItemInv s) (k : Item.DeclKind) (id : Str) :
    OnlyQ (Item.declareResponse k s id) := by
  intro e h
  rw [declareResponse_eq hs] at h
  split at h
  · injection h with h; exact h.symm
  · split at h
    · rename_i e' he; injection h with h; subst h; exact chooseName_onlyQ _ _ _ he
    · cases h

theorem declare_onlyQ {s : ItemSt} (hs : Good s) (id : Str) (card : Card) (base : Base) (d : Option FloatVal) :
    OnlyQ (declare s id card base d) :=
  onlyQ_bind (declareResponse_onlyQ hs.inv _ _) fun _ _ => onlyQ_ok _

theorem declareFake_onlyQ {s : ItemSt} (hs : Good s) (id : Str) (card : Card) (base : Base) :
    OnlyQ (declareFake s id card base) :=
  onlyQ_bind (declareResponse_onlyQ hs.inv _ _) fun _ _ => onlyQ_ok _

theorem responseName_some {s : ItemSt} (hs : Good s) {id n : Str} (h : get s.vars.responses id = some n) :
    responseName s id = .ok n := by
  unfold responseName
  rw [getResponse_eq hs.inv, h]; rfl

theorem bind_some {s : ItemSt} (hs : Good s) {i : Pres.Inter} {id n : Str} (h : get s.vars.responses id = some n) :
    OnlyQ (Pres.bind s i id) := by
  unfold Pres.bind
  rw [responseName_some hs h]
  exact onlyQ_ok _

theorem readArea_onlyQ (a : Option Str) : OnlyQ (readArea a) := by
  intro e h
  unfold readArea at h
  split at h
  · cases h
  · simp only at h
    split at h
    · cases h
    · split at h
      · cases h
      · split at h
        · cases h
        · injection h with h; exact h.symm

theorem intOfStr_digits {t : Str} (h0 : t ≠ []) (h : ∀ c ∈ t, Py.isDigit c = true) : ∃ n, Py.intOfStr t = .ok n := by
  have ha : t.all Py.isDigit = true := by simpa using h
  unfold Py.intOfStr
  split
  · rename_i u
    exact absurd (h '-' (by simp)) (by decide)
  · exact ⟨_, by rw [if_pos ⟨h0, ha⟩]⟩

theorem areaNums_ok : ∀ (t : Str) (cs : List Int) (v : Str) (sep : Bool),
    (∀ c ∈ t, Py.isDigit c = true ∨ c = ',' ∨ c = ' ') → (∀ c ∈ v, Py.isDigit c = true) →
    ∃ r, Shapes.areaNums t cs v sep = .ok r := by
  intro t
  induction t with
  | nil =>
    intro cs v sep _ hv
    unfold Shapes.areaNums
    split
    · rename_i h0
      obtain ⟨n, hn⟩ := intOfStr_digits h0 hv
      rw [hn]; exact ⟨_, rfl⟩
    · exact ⟨_, rfl⟩
  | cons c t ih =>
    intro cs v sep ht hv
    have ht' : ∀ c ∈ t, Py.isDigit c = true ∨ c = ',' ∨ c = ' ' := fun x hx => ht x (by simp [hx])
    unfold Shapes.areaNums
    split
    · rename_i hn
      have hd : Py.isDigit c = true := by
        rcases ht c (by simp) with h | rfl | rfl
        · exact h
        · exact absurd hn (by decide)
        · exact absurd hn (by decide)
      split
      · rename_i h0
        obtain ⟨n, hn⟩ := intOfStr_digits h0.2 hv
        rw [hn]
        exact ih _ _ _ ht' (by simp [hd])
      · apply ih _ _ _ ht'
        intro x hx
        rcases List.mem_append.1 hx with hx | hx
        · exact hv x hx
        · simp only [List.mem_singleton] at hx; rw [hx]; exact hd
    · exact ih _ _ _ ht' hv

theorem padTo4_length (cs : List Int) : 4 ≤ (Shapes.padTo4 cs).length := by
  unfold Shapes.padTo4
  simp only [List.length_append, List.length_replicate]
  omega

theorem labelArea_ok {l : Label} (hl : CoordLabel l) (shape : Option Shapes.V1Shape) :
    ∃ a, labelArea shape (labelData l) = .ok a := by
  obtain ⟨r, hr⟩ := areaNums_ok (labelData l) [] [] false (by
    intro c hc
    obtain ⟨i, hi, hc⟩ := List.mem_flatMap.1 hc
    obtain ⟨t, rfl, ht⟩ := hl i hi
    exact ht c hc) (by simp)
  have h4 := padTo4_length r
  unfold labelArea
  cases shape with
  | none => simp only [hr]; exact ⟨_, rfl⟩
  | some sh =>
    have hc : ∃ x, Shapes.convertAreaCoords sh (labelData l) = .ok x := by
      simp only [Shapes.convertAreaCoords, hr, Bind.bind, Except.bind]
      generalize Shapes.padTo4 r = p at h4
      match p, h4 with
      | a :: b :: c :: d :: t, _ =>
        cases sh with
        | rect => exact ⟨_, rfl⟩
        | ellipse =>
          by_cases hcd : c = d
          · exact ⟨_, if_pos hcd⟩
          · exact ⟨_, if_neg hcd⟩
        | bounded => exact ⟨_, rfl⟩
    obtain ⟨x, hx⟩ := hc
    simp only [hx]; exact ⟨_, rfl⟩

theorem closeLabel_onlyQ (thing : Option LabelThing) (hot : Bool) (level : Nat) (l : Label)
    (h : thing = some .hotspot → CoordLabel l) : OnlyQ (closeLabel thing hot level l) := by
  unfold closeLabel
  refine onlyQ_bind (readArea_onlyQ _) fun shape _ => ?_
  cases thing with
  | none => exact onlyQ_ok _
  | some t =>
    cases t with
    | simple => exact onlyQ_ok _
    | associable => exact onlyQ_ok _
    | string => exact onlyQ_ok _
    | hotspot =>
      have hl := h rfl
      obtain ⟨a, ha⟩ := labelArea_ok hl shape
      have hc : labelChildren hot level l = [] := by
        unfold labelChildren
        rw [List.flatMap_eq_nil_iff]
        intro i hi
        obtain ⟨t, rfl, _⟩ := hl i hi
        rfl
      simp only [ha, hc, extractTexts]
      exact onlyQ_ok _

theorem closeLabel_noBlank {thing : Option LabelThing} (ht : thing ≠ some .string) {hot : Bool} {level : Nat} {l : Label}
    {n : Str} (h : closeLabel thing hot level l = .ok (some (.blank n))) : False := by
  unfold closeLabel at h
  obtain ⟨sh, _, h⟩ := bind_ok h
  cases thing with
  | none => cases h
  | some t =>
    cases t with
    | simple => cases h
    | associable => cases h
    | string => exact ht rfl
    | hotspot =>
      obtain ⟨a, _, h⟩ := bind_ok h
      obtain ⟨t, _, h⟩ := bind_ok h
      cases h

theorem collectLabels_onlyQ (thing : Option LabelThing) (hot : Bool) (level : Nat) (ht : thing ≠ some .string) :
    ∀ (ls : List Label) (r : RenderSt), (thing = some .hotspot → ∀ l ∈ ls, CoordLabel l) →
      OnlyQ (collectLabels thing hot level ls r) := by
  intro ls
  induction ls with
  | nil => intro r _; exact onlyQ_ok _
  | cons l ls ih =>
    intro r h
    unfold collectLabels
    refine onlyQ_bind (closeLabel_onlyQ _ _ _ _ fun e => h e l (by simp)) fun m hm => ?_
    cases m with
    | none => exact ih _ fun e x hx => h e x (by simp [hx])
    | some m =>
      cases m with
      | elt e => exact ih _ fun e x hx => h e x (by simp [hx])
      | blank n => exact (closeLabel_noBlank ht hm).elim

theorem collect_onlyQ (thing : Option LabelThing) (hot : Bool) (level : Nat) (ht : thing ≠ some .string) :
    ∀ (is : List RItem) (r : RenderSt), (thing = some .hotspot → ∀ l ∈ labelsOf is, CoordLabel l) →
      OnlyQ (collect thing hot level is r) := by
  intro is
  induction is with
  | nil => intro r _; exact onlyQ_ok _
  | cons i is ih =>
    intro r h
    cases i with
    | mat m => unfold collect; exact ih _ (by rw [labelsOf_cons_mat] at h; exact h)
    | labels t =>
      unfold collect
      rw [labelsOf_cons_labels] at h
      exact onlyQ_bind (collectLabels_onlyQ _ _ _ ht _ _ fun e l hl => h e l (List.mem_append_left _ hl))
        fun c _ => ih _ fun e l hl => h e l (List.mem_append_right _ hl)

theorem choiceThing_string (kind : RKind) (card : Card) (b : Bool) (m : Option Int) :
    (choiceThing kind card b m).map (·.1) ≠ some .string ∧ (choiceThing kind card b m).map (·.1) ≠ some .hotspot := by
  cases kind <;> cases card <;> simp [choiceThing]

theorem renderChoice_onlyQ (kind : RKind) (card : Card) (level : Nat) (shuffle maxnumber : Option Str)
    (items : List RItem) (r : RespSt) : OnlyQ (renderChoice kind card level shuffle maxnumber items r) := by
  unfold renderChoice
  exact onlyQ_bind (collect_onlyQ _ _ _ (choiceThing_string ..).1 _ _ fun e => absurd e (choiceThing_string ..).2)
    fun _ _ => onlyQ_ok _

/-- The elements made from material without formatted text. -/
inductive Simple : Elt → Prop
  | text (s : Str) : Simple (.text s)
  | br (b) : Simple (.br b)
  | img (b s a l w h) : Simple (.img b s a l w h)
  | object (d t w h) : Simple (.object d (some t) w h)
  | inline (n b e) : Simple e → Simple (.inline n b [e])

theorem simple_material (hot : Bool) (m : Material) (h : Unformatted m) : ∀ e ∈ materialElts hot m, Simple e := by
  intro e he
  unfold materialElts at he
  obtain ⟨p, hp, he⟩ := List.mem_flatMap.1 he
  have hu := h p hp
  cases p with
  | text a b c =>
    simp only [pieceElts, List.mem_singleton] at he
    subst he
    unfold labelled
    split
    · exact .inline _ _ _ (.text _)
    · exact .text _
  | formatted es => exact absurd rfl (hu es)
  | emtext a b c =>
    simp only [pieceElts, List.mem_singleton] at he
    subst he
    unfold labelled
    split
    · exact .inline _ _ _ (.inline _ _ _ (.text _))
    · exact .inline _ _ _ (.text _)
  | emtextOther => simp [pieceElts] at he
  | image t u w h =>
    simp only [pieceElts] at he
    split at he
    · split at he
      · simp only [List.mem_singleton] at he; subst he; exact .object ..
      · simp only [List.mem_singleton] at he; subst he; exact .img ..
    · cases he
  | audio t u =>
    simp only [pieceElts] at he
    split at he
    · simp only [List.mem_singleton] at he; subst he; exact .object ..
    · cases he
  | brk => simp only [pieceElts, List.mem_singleton] at he; subst he; exact .br _
  | unsupported => simp [pieceElts] at he

theorem imagesIn_cons_ok {e : Elt} (he : Simple e) : ∀ {es : List Elt} {r}, imagesIn es = .ok r →
    ∃ q, imagesIn (e :: es) = .ok q := by
  induction he with
  | text s => intro es r h; simp only [imagesIn, imagesOf, h]; exact ⟨_, rfl⟩
  | br b => intro es r h; simp only [imagesIn, imagesOf, h]; exact ⟨_, rfl⟩
  | img => intro es r h; simp only [imagesIn, imagesOf, h]; exact ⟨_, rfl⟩
  | object d t w hh =>
    intro es r h
    simp only [imagesIn, isImageType, h]
    simp only [Bind.bind, Except.bind]
    split
    · exact ⟨_, rfl⟩
    · exact ⟨_, rfl⟩
  | inline n b e he ih =>
    intro es r h
    obtain ⟨q, hq⟩ := ih (es := []) (r := ([], [])) (by simp only [imagesIn])
    simp only [imagesIn.eq_3, imagesOf, hq, h]
    exact ⟨_, rfl⟩

theorem imagesIn_simple : ∀ (es : List Elt), (∀ e ∈ es, Simple e) → ∃ r, imagesIn es = .ok r
  | [], _ => ⟨_, rfl⟩
  | e :: es, h => by
    obtain ⟨r, hr⟩ := imagesIn_simple es fun x hx => h x (by simp [hx])
    exact imagesIn_cons_ok (h e (by simp)) hr

theorem collectLabels_prepost (thing : Option LabelThing) (hot : Bool) (level : Nat) (P : Elt → Prop) :
    ∀ (ls : List Label) (r r' : RenderSt), collectLabels thing hot level ls r = .ok r' →
      (∀ e ∈ r.pre ++ r.post, P e) → ∀ e ∈ r'.pre ++ r'.post, P e := by
  intro ls
  induction ls with
  | nil => intro r r' h; simp only [collectLabels, Except.ok.injEq] at h; subst h; exact id
  | cons l ls ih =>
    intro r r' h hp
    simp only [collectLabels] at h
    obtain ⟨m, _, h⟩ := bind_ok h
    cases m with
    | none => exact ih _ _ h hp
    | some m =>
      cases m with
      | elt e =>
        refine ih _ _ h ?_
        intro x hx
        simp only [RenderSt.appendLabel, List.append_nil] at hx
        exact hp x (List.mem_append_left _ hx)
      | blank n => cases h

theorem collect_prepost (thing : Option LabelThing) (hot : Bool) (level : Nat) (P : Elt → Prop) :
    ∀ (is : List RItem) (r r' : RenderSt), collect thing hot level is r = .ok r' →
      (∀ m ∈ matsOf is, ∀ e ∈ materialElts hot m, P e) → (∀ e ∈ r.pre ++ r.post, P e) →
      ∀ e ∈ r'.pre ++ r'.post, P e := by
  intro is
  induction is with
  | nil => intro r r' h _; simp only [collect, Except.ok.injEq] at h; subst h; exact id
  | cons i is ih =>
    intro r r' h hm hp
    cases i with
    | mat m =>
      simp only [collect] at h
      refine ih _ _ h (fun x hx => hm x (by simp only [matsOf, List.flatMap_cons]; simp [matsOf] at hx; simp [hx])) ?_
      have h0 : ∀ e ∈ materialElts hot m, P e := hm m (by simp [matsOf])
      revert h0
      generalize materialElts hot m = es
      revert hp
      clear h
      induction es generalizing r with
      | nil => intro hp _; exact hp
      | cons e es ihe =>
        intro hp h0
        refine ihe (r.append e) ?_ fun x hx => h0 x (by simp [hx])
        intro x hx
        unfold RenderSt.append at hx
        split at hx
        · simp only [List.mem_append, List.mem_singleton] at hx
          rcases hx with (hx | rfl) | hx
          · exact hp x (List.mem_append_left _ hx)
          · exact h0 _ (by simp)
          · exact hp x (List.mem_append_right _ hx)
        · simp only [List.mem_append, List.mem_singleton] at hx
          rcases hx with hx | hx | rfl
          · exact hp x (List.mem_append_left _ hx)
          · exact hp x (List.mem_append_right _ hx)
          · exact h0 _ (by simp)
    | labels t =>
      simp only [collect] at h
      obtain ⟨c, hc, h⟩ := bind_ok h
      refine ih _ _ h (fun x hx => hm x (by simp only [matsOf, List.flatMap_cons]; simp [matsOf] at hx; simp [hx])) ?_
      exact collectLabels_prepost _ _ _ P _ _ _ hc hp

theorem renderHotspot_onlyQ {kind : RKind} {card : Card} {level : Nat} {maxnumber : Option Str} {items : List RItem}
    {r : RespSt} (h : RenderSafe kind card items (.hotspot maxnumber)) :
    OnlyQ (renderHotspot kind card level maxnumber items r) := by
  obtain ⟨hu, hk⟩ := h
  have ht : ∃ t, hotThing kind card = .ok t ∧ t.2 ≠ some .string ∧
      (t.2 = some .hotspot → ∀ l ∈ labelsOf items, CoordLabel l) := by
    cases kind with
    | lid => cases card <;> exact ⟨_, rfl, by simp, fun _ => hk⟩
    | xy => cases card <;> exact ⟨_, rfl, by simp, by simp⟩
    | str => exact hk.elim
    | num n => exact hk.elim
    | grp => exact hk.elim
  obtain ⟨t, ht, h1, h2⟩ := ht
  unfold renderHotspot
  rw [ht]
  refine onlyQ_bind (onlyQ_ok _) fun t' ht' => ?_
  simp only [Except.ok.injEq] at ht'
  subst ht'
  refine onlyQ_bind (collect_onlyQ _ _ _ h1 _ _ h2) fun c hc => ?_
  have hs := collect_prepost _ true level Simple items {} c hc (fun m hm => simple_material true m (hu m hm)) (by simp)
  obtain ⟨a, ha⟩ := imagesIn_simple c.pre fun e he => hs e (List.mem_append_left _ he)
  obtain ⟨b, hb⟩ := imagesIn_simple c.post fun e he => hs e (List.mem_append_right _ he)
  rw [ha, hb]
  exact onlyQ_ok _

/-- For integers only when the source says so. -/
def IntOk (kind : RKind) (b : Base) : Prop := b = .integer → kind.base = .integer

theorem renderSlider_onlyQ {kind : RKind} {card : Card} {level : Nat} {o : Option Str}
    {lo up st sv : Option (Option FloatVal)} {sl : Option Str} {items : List RItem} {r : RespSt}
    (h : RenderSafe kind card items (.slider o lo up st sv sl)) (hb : IntOk kind r.baseType) :
    OnlyQ (renderSlider kind card level o lo up st sv sl items r) := by
  have key : ∃ t, sliderThing kind card r.baseType sv = .ok t ∧ t.2 ≠ some .string ∧ t.2 ≠ some .hotspot ∧
      (t.1 = true → ∀ base labels, ∃ i, sliderInter kind base o lo up st sl labels = .ok i) := by
    have hnum : ∀ n, (card = .single → sl ≠ none ∧ (r.baseType = .integer → sv ≠ none)) → kind = .num n →
        ∃ t, sliderThing kind card r.baseType sv = .ok t ∧ t.2 ≠ some .string ∧ t.2 ≠ some .hotspot ∧
          (t.1 = true → ∀ base labels, ∃ i, sliderInter kind base o lo up st sl labels = .ok i) := by
      intro n hc hn
      subst hn
      by_cases hs : card = .single
      · subst hs
        obtain ⟨c1, c2⟩ := hc rfl
        refine ⟨(true, none), ?_, by simp, by simp, ?_⟩
        · unfold sliderThing
          simp only
          rw [if_neg]
          intro hh
          have := c2 hh.1
          cases sv with
          | none => exact this rfl
          | some v => cases v <;> simp [sliderDefault] at hh
        · intro _ base labels
          cases sl with
          | none => exact absurd rfl c1
          | some v => exact ⟨_, rfl⟩
      · refine ⟨(false, none), ?_, by simp, by simp, by simp⟩
        cases card with
        | single => exact absurd rfl hs
        | multiple => rfl
        | ordered => rfl
    cases kind with
    | lid =>
      cases card with
      | single => exact ⟨_, rfl, by simp, by simp, fun _ _ _ => ⟨_, rfl⟩⟩
      | multiple => exact ⟨_, rfl, by simp, by simp, by simp⟩
      | ordered => exact ⟨_, rfl, by simp, by simp, by simp⟩
    | xy => exact ⟨_, rfl, by simp, by simp, by simp⟩
    | str => exact ⟨_, rfl, by simp, by simp, by simp⟩
    | grp => exact ⟨_, rfl, by simp, by simp, by simp⟩
    | num n =>
      refine hnum n ?_ rfl
      intro hs
      cases n with
      | none => exact ⟨h hs, fun hi => absurd (hb hi) (by simp [RKind.base])⟩
      | some v =>
        refine ⟨(h hs).1, fun hi => (h hs).2 ?_⟩
        have := hb hi
        simp only [RKind.base] at this
        split at this
        · assumption
        · cases this
  obtain ⟨t, h1, h2, h3, h4⟩ := key
  unfold renderSlider
  rw [h1]
  refine onlyQ_bind (onlyQ_ok _) fun t' ht' => ?_
  simp only [Except.ok.injEq] at ht'
  subst ht'
  refine onlyQ_bind (collect_onlyQ _ _ _ h2 _ _ fun e => absurd e h3) fun c _ => ?_
  refine onlyQ_bind ?_ fun _ _ => onlyQ_ok _
  split
  · rename_i ht
    obtain ⟨i, hi⟩ := h4 ht (r.appendAll c.pre).baseType c.labels
    rw [hi]; exact onlyQ_ok _
  · exact onlyQ_ok _

theorem fibLabels_onlyQ (level : Nat) : ∀ ls : List Label, OnlyQ (fibLabels level ls)
  | [] => onlyQ_ok _
  | l :: ls => by
    unfold fibLabels
    exact onlyQ_bind (closeLabel_onlyQ _ _ _ _ (by simp)) fun _ _ =>
      onlyQ_bind (fibLabels_onlyQ level ls) fun _ _ => onlyQ_ok _

theorem fibChildren_onlyQ (level : Nat) : ∀ is : List RItem, OnlyQ (fibChildren level is)
  | [] => onlyQ_ok _
  | .mat m :: is => by
    unfold fibChildren
    exact onlyQ_bind (fibChildren_onlyQ level is) fun _ _ => onlyQ_ok _
  | .labels t :: is => by
    unfold fibChildren
    exact onlyQ_bind (fibLabels_onlyQ level _) fun _ _ =>
      onlyQ_bind (fibChildren_onlyQ level is) fun _ _ => onlyQ_ok _

theorem fibIndexed_onlyQ (ident : Str) (i : Pres.Inter) : ∀ (cs : List FibChild) (r : RespSt) (s : ItemSt), Good s →
    OnlyQ (fibIndexed ident i cs r s)
  | [], r, s, hs => onlyQ_ok _
  | .elt e :: cs, r, s, hs => by unfold fibIndexed; exact fibIndexed_onlyQ ident i cs _ s hs
  | .blank n :: cs, r, s, hs => by
    unfold fibIndexed
    refine onlyQ_bind (declare_onlyQ hs _ _ _ _) fun s1 h1 => ?_
    obtain ⟨d, d1, _, _, _, d5, _⟩ := declare_ok hs h1
    refine onlyQ_bind (bind_some d1.good d5) fun b hb => ?_
    exact fibIndexed_onlyQ ident i cs _ _ (bind_bound d1.good hb).2.1.good

theorem renderFib_onlyQ {ff : Bool} {kind : RKind} {card : Card} {ident : Str} {level : Nat}
    {a b c d e f : Option Str} {items : List RItem} {r : RespSt} {s : ItemSt} (hs : Good s)
    (h : RenderSafe kind card items (.fib a b c d e f)) :
    OnlyQ (renderFib ff kind card ident level a b c d e f items r s) := by
  have ht : ∃ t, fibTypes ff kind a r.baseType = .ok t := by
    unfold fibTypes
    cases kind with
    | str => exact onlyQ_ite _ _ _
    | num n => exact onlyQ_ite _ _ _
    | lid => exact h.elim
    | xy => exact h.elim
    | grp => exact h.elim
  obtain ⟨t, ht⟩ := ht
  unfold renderFib
  rw [ht]
  refine onlyQ_bind (onlyQ_ok _) fun t' ht' => ?_
  refine onlyQ_bind (fibChildren_onlyQ _ _) fun cs _ => ?_
  simp only
  split
  · split
    · exact onlyQ_ok _
    · exact fibIndexed_onlyQ _ _ _ _ _ hs
  · exact onlyQ_ok _

theorem renderOne_onlyQ {ff : Bool} {kind : RKind} {card : Card} {ident : Str} {level : Nat} {k : Render}
    {items : List RItem} {r : RespSt} {s : ItemSt} (hs : Good s) (hb : IntOk kind r.baseType)
    (h : RenderSafe kind card items k) : OnlyQ (renderOne ff kind card ident level k items r s) := by
  unfold renderOne
  cases k with
  | choice => exact onlyQ_bind (renderChoice_onlyQ _ _ _ _ _ _ _) fun _ _ => onlyQ_ok _
  | hotspot => exact onlyQ_bind (renderHotspot_onlyQ h) fun _ _ => onlyQ_ok _
  | slider => exact onlyQ_bind (renderSlider_onlyQ h hb) fun _ _ => onlyQ_ok _
  | fib => exact renderFib_onlyQ hs h

theorem fibSingle_base (i : Pres.Inter) : ∀ (cs : List FibChild) (r : RespSt), (fibSingle i cs r).baseType = r.baseType
  | [], r => rfl
  | .blank _ :: cs, r => by simp only [fibSingle]; rw [fibSingle_base i cs]
  | .elt e :: cs, r => by
    simp only [fibSingle]; rw [fibSingle_base i cs]; exact appendAll_base [e] r

theorem fibIndexed_base (ident : Str) (i : Pres.Inter) : ∀ (cs : List FibChild) (r : RespSt) (s : ItemSt) q,
    fibIndexed ident i cs r s = .ok q → q.1.baseType = r.baseType
  | [], r, s, q, h => by simp only [fibIndexed, Except.ok.injEq] at h; subst h; rfl
  | .elt e :: cs, r, s, q, h => by
    simp only [fibIndexed] at h
    rw [fibIndexed_base ident i cs _ _ _ h]; exact appendAll_base [e] r
  | .blank n :: cs, r, s, q, h => by
    simp only [fibIndexed] at h
    obtain ⟨_, _, h⟩ := bind_ok h
    obtain ⟨_, _, h⟩ := bind_ok h
    rw [fibIndexed_base ident i cs _ _ _ h]
    exact appendAll_base [_] _

theorem fibTypes_base {ff : Bool} {kind : RKind} {a : Option Str} {b : Base} {t} (ht : fibTypes ff kind a b = .ok t) :
    t.2 = .float ∨ t.2 = b := by
  unfold fibTypes at ht
  cases ff with
  | true =>
    cases kind with
    | str => simp [-String.reduceToList] at ht; left; rw [← ht]
    | num n => simp [-String.reduceToList] at ht; left; rw [← ht]
    | lid => cases ht
    | xy => cases ht
    | grp => cases ht
  | false =>
    cases kind with
    | str =>
      simp only [Bool.false_eq_true, if_false] at ht
      split at ht
      · right; rw [← Except.ok.inj ht]
      · right; rw [← Except.ok.inj ht]
    | num n =>
      simp only [Bool.false_eq_true, if_false] at ht
      split at ht
      · left; rw [← Except.ok.inj ht]
      · right; rw [← Except.ok.inj ht]
    | lid => cases ht
    | xy => cases ht
    | grp => cases ht

theorem renderOne_int {ff : Bool} {kind : RKind} {card : Card} {ident : Str} {level : Nat} {k : Render}
    {items : List RItem} {r : RespSt} {s : ItemSt} {q} (hb : IntOk kind r.baseType)
    (h : renderOne ff kind card ident level k items r s = .ok q) : IntOk kind q.1.baseType := by
  have hsame : ∀ {b : Base}, b = r.baseType → IntOk kind b := fun e => e ▸ hb
  unfold renderOne at h
  cases k with
  | choice =>
    obtain ⟨x, hx, h⟩ := bind_ok h
    simp only [Except.ok.injEq] at h
    subst h
    unfold renderChoice at hx
    obtain ⟨c, _, hx⟩ := bind_ok hx
    have hx := Except.ok.inj hx
    apply hsame
    simp only [← hx, appendAll_base]
    split <;> simp only [appendAll_base]
  | hotspot =>
    obtain ⟨x, hx, h⟩ := bind_ok h
    simp only [Except.ok.injEq] at h
    subst h
    unfold renderHotspot at hx
    obtain ⟨_, _, hx⟩ := bind_ok hx
    obtain ⟨_, _, hx⟩ := bind_ok hx
    obtain ⟨_, _, hx⟩ := bind_ok hx
    obtain ⟨_, _, hx⟩ := bind_ok hx
    have hx := Except.ok.inj hx
    apply hsame
    simp only [← hx, appendAll_base]
    split <;> simp only [appendAll_base]
  | slider =>
    obtain ⟨x, hx, h⟩ := bind_ok h
    simp only [Except.ok.injEq] at h
    subst h
    unfold renderSlider at hx
    obtain ⟨_, _, hx⟩ := bind_ok hx
    obtain ⟨_, _, hx⟩ := bind_ok hx
    obtain ⟨y, hy, hx⟩ := bind_ok hx
    have hx := Except.ok.inj hx
    apply hsame
    simp only [← hx, appendAll_base]
    split at hy
    · obtain ⟨_, _, hy⟩ := bind_ok hy
      have hy := Except.ok.inj hy
      simp only [← hy, appendAll_base]
    · have hy := Except.ok.inj hy
      simp only [← hy, appendAll_base]
  | fib =>
    unfold renderFib at h
    obtain ⟨t, ht, h⟩ := bind_ok h
    obtain ⟨cs, _, h⟩ := bind_ok h
    simp only at h
    have ht2 : IntOk kind t.2 := by
      rcases fibTypes_base ht with e | e <;> rw [e]
      · intro hh; cases hh
      · exact hb
    split at h
    · split at h
      · have h := Except.ok.inj h
        rw [← h]
        simp only [fibSingle_base]
        exact ht2
      · rw [fibIndexed_base _ _ _ _ _ _ h]; exact ht2
    · have h := Except.ok.inj h
      rw [← h]; exact ht2

theorem respItems_onlyQ {ff : Bool} {kind : RKind} {card : Card} {ident : Str} {level : Nat} (is : List RespItem)
    (hp : ∀ i ∈ is, RespItemP PlainPiece i) (hsafe : ∀ k items, (k, items) ∈ rendersOf is → RenderSafe kind card items k) :
    ∀ (r : RespSt) (s : ItemSt) (new : List Decl), Good s → RB kind card ident s r new → IntOk kind r.baseType →
      OnlyQ (respItems ff kind card ident level is r s) := by
  induction is with
  | nil => intro r s _ _ _ _; exact onlyQ_ok _
  | cons i is ih =>
    intro r s new hs hr hb
    have hp' : ∀ i ∈ is, RespItemP PlainPiece i := fun x hx => hp x (by simp [hx])
    cases i with
    | mat m =>
      have hm : Mat PlainPiece m := hp (.mat m) (by simp)
      unfold respItems
      exact ih hp' (fun k items h => hsafe k items (by simpa [rendersOf] using h)) _ _ _ hs
        (hr.append (quiet_material false m hm)) (by rw [appendAll_base]; exact hb)
    | render k items =>
      unfold respItems
      refine onlyQ_bind (renderOne_onlyQ hs hb (hsafe k items (by simp [rendersOf]))) fun q hq => ?_
      obtain ⟨more, h1, h2⟩ := respItems_rb (ff := ff) (level := level) (s' := q.2) (r' := q.1) [.render k items]
        (by intro x hx; simp only [List.mem_singleton] at hx; subst hx; exact hp _ (by simp)) hs hr
        (by simp only [respItems, hq]; rfl)
      exact ih hp' (fun k items h => hsafe k items (by simp [rendersOf] at h ⊢; exact .inr h)) _ _ _ h2.good h1 (renderOne_int hb hq)

theorem indexNames_onlyQ {s : ItemSt} (hs : Good s) {ident : Str} : ∀ (new : List Decl) (i : Nat),
    (∀ (k : Nat) d, new[k]? = some d → get s.vars.responses (indexedIdent ident (k + i)) = some d.identifier) →
    OnlyQ (indexNames s ident new.length i) := by
  intro new
  induction new with
  | nil => intro i _; exact onlyQ_ok _
  | cons d new ih =>
    intro i hk
    simp only [List.length_cons]
    unfold indexNames
    have h0 := hk 0 d (by simp)
    rw [Nat.zero_add] at h0
    rw [responseName_some hs h0]
    refine onlyQ_bind (onlyQ_ok _) fun _ _ => ?_
    refine onlyQ_bind (ih (i + 1) fun k x hx => ?_) fun _ _ => onlyQ_ok _
    have := hk (k + 1) x (by simpa using hx)
    rw [show k + 1 + i = k + (i + 1) by omega] at this
    exact this

theorem closeResponse_onlyQ {kind : RKind} {card : Card} {ident : Str} {r : RespSt} {s : ItemSt} {new : List Decl}
    (hs : Good s) (hr : RB kind card ident s r new) : OnlyQ (closeResponse card ident r s) := by
  unfold closeResponse
  split
  · refine onlyQ_bind (declareFake_onlyQ hs _ _ _) fun s1 h1 => ?_
    obtain ⟨d, d1, _, _, _, d5, _⟩ := declareFake_ok hs h1
    rw [responseName_some d1.good d5]
    refine onlyQ_bind (onlyQ_ok _) fun _ _ => ?_
    rw [← hr.len]
    exact onlyQ_bind (indexNames_onlyQ d1.good new 1 fun k x hx => d1.kept _ _ (hr.index k x hx)) fun _ _ => onlyQ_ok _
  · refine onlyQ_bind (declare_onlyQ hs _ _ _ _) fun s1 h1 => ?_
    obtain ⟨d, d1, _, _, _, d5, _⟩ := declare_ok hs h1
    split
    · exact onlyQ_bind (bind_some d1.good d5) fun _ _ => onlyQ_ok _
    · exact onlyQ_ok _

/-- A response each rendering of which is safe. -/
def RespSafe (q : Response) : Prop := ∀ k items, (k, items) ∈ rendersOf q.items → RenderSafe q.kind q.card items k

theorem response_onlyQ {ff : Bool} {level : Nat} {q : Response} {s : ItemSt} (hs : Good s)
    (hp : ∀ i ∈ q.items, RespItemP PlainPiece i) (h : RespSafe q) : OnlyQ (response ff level q s) := by
  unfold response
  refine onlyQ_bind (respItems_onlyQ q.items hp h _ _ _ hs (rb_init _ _ _ s) fun e => e) fun r hr => ?_
  obtain ⟨blanks, h1, h2⟩ := respItems_rb (s' := r.2) (r' := r.1) q.items hp hs (rb_init _ _ _ s) hr
  exact closeResponse_onlyQ h2.good h1

mutual
theorem flowItem_onlyQ {ff : Bool} : ∀ (level : Nat) (k : FlowItem) (s : ItemSt), Good s → FlowP PlainPiece k →
    (∀ q ∈ responsesOf k, RespSafe q) → OnlyQ (flowItem ff level k s)
  | level, .flow cls kids, s, hs, hp, h => by
    simp only [flowItem]
    exact onlyQ_bind (flowItems_onlyQ (level + 1) kids s hs (by simpa [FlowP] using hp) (by simpa [responsesOf] using h))
      fun _ _ => onlyQ_ok _
  | level, .mat m, s, hs, hp, h => by simp only [flowItem]; exact onlyQ_ok _
  | level, .resp q, s, hs, hp, h => by
    simp only [flowItem]
    exact response_onlyQ hs (by simpa [FlowP] using hp) (h q (by simp [responsesOf]))
theorem flowItems_onlyQ {ff : Bool} : ∀ (level : Nat) (ks : List FlowItem) (s : ItemSt), Good s → FlowsP PlainPiece ks →
    (∀ q ∈ responsesIn ks, RespSafe q) → OnlyQ (flowItems ff level ks s)
  | level, [], s, hs, hp, h => by simp only [flowItems]; exact onlyQ_ok _
  | level, k :: ks, s, hs, hp, h => by
    simp only [flowItems]
    have hp' : FlowP PlainPiece k ∧ FlowsP PlainPiece ks := by simpa [FlowsP] using hp
    have h' : ∀ q, q ∈ responsesOf k ∨ q ∈ responsesIn ks → RespSafe q := by
      intro q hq; exact h q (by simpa [responsesIn] using hq)
    refine onlyQ_bind (flowItem_onlyQ level k s hs hp'.1 fun q hq => h' q (.inl hq)) fun a ha => ?_
    obtain ⟨new, hl⟩ := laid_flowItem ff level k hs hp'.1 ha
    exact onlyQ_bind (flowItems_onlyQ level ks a.2 hl.ext.good hp'.2 fun q hq => h' q (.inr hq)) fun _ _ => onlyQ_ok _
end

theorem topItem_onlyQ {ff : Bool} (k : FlowItem) (s : ItemSt) (hs : Good s) (hp : FlowP PlainPiece k)
    (h : ∀ q ∈ responsesOf k, RespSafe q) : OnlyQ (topItem ff k s) := by
  unfold topItem
  cases k with
  | flow cls kids => exact onlyQ_bind (flowItems_onlyQ 0 kids s hs hp h) fun _ _ => onlyQ_ok _
  | mat m => exact onlyQ_ok _
  | resp q => exact onlyQ_bind (response_onlyQ hs hp (h q (by simp [responsesOf]))) fun _ _ => onlyQ_ok _

/-- **C102.** When each rendering is one the converter was written for, it makes a body or reports a mistake in the
source: an identifier that is used twice, or an area that is of no known kind. -/
theorem presentation_fails_partial (ff : Bool) (kids : List FlowItem) (e : Err) (hp : FlowsP PlainPiece kids)
    (hsafe : ∀ q ∈ responsesIn kids, ∀ k items, (k, items) ∈ rendersOf q.items → RenderSafe q.kind q.card items k)
    (h : presentation ff kids {} = .error e) : e = .qtiException := by
  have key : ∀ (ks : List FlowItem) (s : ItemSt), Good s → FlowsP PlainPiece ks →
      (∀ q ∈ responsesIn ks, RespSafe q) → OnlyQ (presentation ff ks s) := by
    intro ks
    induction ks with
    | nil => intro s _ _ _; simp only [presentation]; exact onlyQ_ok _
    | cons k ks ih =>
      intro s hs hp h
      simp only [presentation]
      have hp' : FlowP PlainPiece k ∧ FlowsP PlainPiece ks := by simpa [FlowsP] using hp
      have h' : ∀ q, q ∈ responsesOf k ∨ q ∈ responsesIn ks → RespSafe q := by
        intro q hq; exact h q (by simpa [responsesIn] using hq)
      refine onlyQ_bind (topItem_onlyQ k s hs hp'.1 fun q hq => h' q (.inl hq)) fun a ha => ?_
      obtain ⟨⟨new, hl⟩, _⟩ := laid_topItem hs hp'.1 ha
      exact onlyQ_bind (ih a.2 hl.ext.good hp'.2 fun q hq => h' q (.inr hq)) fun _ _ => onlyQ_ok _
  exact key kids {} good_init hp hsafe e h

/-- The sample meets the conditions. -/
theorem presentation_fails_hypotheses :
    FlowsP PlainPiece pSample ∧
    ∀ q ∈ responsesIn pSample, ∀ k items, (k, items) ∈ rendersOf q.items → RenderSafe q.kind q.card items k := by
  refine ⟨pSample_hypotheses.1, ?_⟩
  intro q hq k items hk
  simp [-String.reduceToList, pSample, responsesIn, responsesOf] at hq
  rcases hq with rfl | rfl <;> simp [-String.reduceToList, rendersOf] at hk <;> obtain ⟨rfl, rfl⟩ := hk <;>
    simp [-String.reduceToList, RenderSafe]

/-- Elsewhere there are internal failures: a blank for a choice, an image for a text, a region with formatted text. -/
theorem presentation_fails_refuted :
    (match presentation false [.resp { kind := .lid, ident := "R".toList, items := [.render (.fib none none none none none none) []] }] {} with
      | .error .attributeError => true | _ => false) = true ∧
    (match presentation false [.resp { kind := .str, ident := "R".toList, items := [.render (.hotspot none) []] }] {} with
      | .error .attributeError => true | _ => false) = true ∧
    (match presentation false [.resp { kind := .lid, ident := "R".toList, items := [.render (.hotspot none)
        [.labels (.label { ident := "A".toList, items := [.data "1.5".toList] })]] }] {} with
      | .error .valueError => true | _ => false) = true := by
  decide +kernel

end Verif.Props
