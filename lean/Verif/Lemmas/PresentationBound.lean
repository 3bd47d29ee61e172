import Verif.Lemmas.PresentationKept
import Verif.Props.ItemVars

/-!
# Lemmas: interactions and the responses declared for them
-/

namespace Verif.Lemmas.Pres

open Verif Verif.Spec Verif.Pres Verif.Props
open Verif.ItemXml (Elt Decl StringAtts)
open Verif.Dict (get set has get_set)

set_option linter.unusedVariables false

/-! ## Declarations -/

/-- The state of an item in which declarations agree with the variables. -/
structure Good (s : ItemSt) : Prop where
  inv : ItemInv s.vars
  known : ∀ d ∈ s.decls, get s.vars.variables d.identifier ≠ none
  nodup : (s.decls.map (·.identifier)).Nodup

/-- A later state, with more declarations. -/
structure Ext (s s' : ItemSt) (new : List Decl) : Prop where
  decls : s'.decls = s.decls ++ new
  kept : ∀ a n, get s.vars.responses a = some n → get s'.vars.responses a = some n
  rules : ∃ more, s'.rules = s.rules ++ more
  good : Good s'

theorem Ext.refl {s : ItemSt} (h : Good s) : Ext s s [] := ⟨by simp, fun _ _ h => h, ⟨[], by simp⟩, h⟩

theorem Ext.trans {s t u : ItemSt} {a b : List Decl} (h : Ext s t a) (k : Ext t u b) : Ext s u (a ++ b) := by
  obtain ⟨m, hm⟩ := h.rules
  obtain ⟨n, hn⟩ := k.rules
  exact ⟨by rw [k.decls, h.decls, List.append_assoc], fun x y hxy => k.kept _ _ (h.kept _ _ hxy),
    ⟨m ++ n, by rw [hn, hm, List.append_assoc]⟩, k.good⟩

theorem good_init : Good {} := ⟨itemInv_init, by simp, by simp⟩

theorem declareResponse_ok {s : Item.St} (hs : ItemInv s) {k : Item.DeclKind} {id : Str} {r : Str × Item.St}
    (h : Item.declareResponse k s id = .ok r) :
    ItemInv r.2 ∧ get s.variables r.1 = none ∧ get r.2.variables r.1 ≠ none ∧
    (∀ n, get s.variables n ≠ none → get r.2.variables n ≠ none) ∧
    get r.2.responses id = some r.1 ∧ get s.responses id = none ∧
    (∀ a n, get s.responses a = some n → get r.2.responses a = some n) ∧
    (get s.variables id = none → r.1 = id) := by
  rw [declareResponse_eq hs] at h
  split at h
  · cases h
  · rename_i hh
    have hno : get s.responses id = none := by
      rw [← Dict.not_has_iff]; simpa using hh
    split at h
    · cases h
    · rename_i name hn
      simp only [Except.ok.injEq] at h
      subst h
      have hf := chooseName_fresh hn
      refine ⟨newResponse_inv hs k hf, hf, by simp [get_set], ?_, by simp [get_set], hno, ?_, ?_⟩
      · intro n hn; simp only [get_set]; split
        · simp
        · exact hn
      · intro a n ha
        simp only [get_set]
        split
        · rename_i e; rw [e, hno] at ha; cases ha
        · exact ha
      · intro hv
        unfold Item.chooseName at hn
        rw [if_neg (by simp [Dict.has, hv])] at hn
        exact (Except.ok.inj hn).symm

theorem good_add {s : ItemSt} (hs : Good s) {v : Item.St} {d : Decl} (rules : List ItemXml.Rule)
    (bound : List (Str × Inter)) (hv : ItemInv v)
    (h1 : get s.vars.variables d.identifier = none) (h2 : get v.variables d.identifier ≠ none)
    (h3 : ∀ n, get s.vars.variables n ≠ none → get v.variables n ≠ none) :
    Good { vars := v, decls := s.decls ++ [d], bound := bound, rules := rules } := by
  refine ⟨hv, ?_, ?_⟩
  · intro x hx
    rcases List.mem_append.1 hx with hx | hx
    · exact h3 _ (hs.known x hx)
    · simp only [List.mem_singleton] at hx; subst hx; exact h2
  · simp only [List.map_append, List.map_cons, List.map_nil]
    rw [List.nodup_append]
    refine ⟨hs.nodup, by simp, ?_⟩
    intro a ha b hb e
    simp only [List.mem_singleton] at hb
    obtain ⟨x, hx, rfl⟩ := List.mem_map.1 ha
    exact hs.known x hx (by rw [e, hb]; exact h1)

theorem declare_ok {s s' : ItemSt} (hs : Good s) {id : Str} {card : Card} {base : Base} {d : Option FloatVal}
    (h : declare s id card base d = .ok s') :
    ∃ dcl : Decl, Ext s s' [dcl] ∧ dcl.outcome = false ∧ dcl.cardinality = card.text ∧ dcl.baseType = base.text ∧
      get s'.vars.responses id = some dcl.identifier ∧ get s.vars.responses id = none ∧
      (get s.vars.variables id = none → dcl.identifier = id) ∧ s'.rules = s.rules ∧
      dcl.default = d.bind fun x => if x.val = 0 then none else some { value := x.text } := by
  unfold declare at h
  obtain ⟨r, hr, h⟩ := bind_ok h
  simp only [Except.ok.injEq] at h
  obtain ⟨h1, h2, h3, h4, h5, h6, h7, h8⟩ := declareResponse_ok hs.inv hr
  subst h
  exact ⟨_, ⟨rfl, h7, ⟨[], by simp⟩, good_add hs s.rules s.bound h1 h2 h3 h4⟩, rfl, rfl, rfl, h5, h6, h8, rfl, by cases d <;> rfl⟩

theorem declareFake_ok {s s' : ItemSt} (hs : Good s) {id : Str} {card : Card} {base : Base}
    (h : declareFake s id card base = .ok s') :
    ∃ dcl : Decl, Ext s s' [dcl] ∧ dcl.outcome = true ∧ dcl.cardinality = card.text ∧ dcl.baseType = base.text ∧
      get s'.vars.responses id = some dcl.identifier ∧ s'.rules = s.rules := by
  unfold declareFake at h
  obtain ⟨r, hr, h⟩ := bind_ok h
  simp only [Except.ok.injEq] at h
  obtain ⟨h1, h2, h3, h4, h5, h6, h7, h8⟩ := declareResponse_ok hs.inv hr
  subst h
  exact ⟨_, ⟨rfl, h7, ⟨[], by simp⟩, good_add hs s.rules s.bound h1 h2 h3 h4⟩, rfl, rfl, rfl, h5, rfl⟩

theorem responseName_ok {s : ItemSt} (hs : Good s) {id n : Str} (h : responseName s id = .ok n) :
    get s.vars.responses id = some n := by
  unfold responseName at h
  rw [getResponse_eq hs.inv] at h
  obtain ⟨o, ho, h⟩ := bind_ok h
  simp only [Except.ok.injEq] at ho
  rw [ho]
  cases o with
  | none => cases h
  | some x => simp only [Except.ok.injEq] at h; rw [h]

theorem bind_bound {s : ItemSt} (hs : Good s) {i : Inter} {id : Str} {b : Str × ItemSt} (h : Pres.bind s i id = .ok b) :
    get s.vars.responses id = some b.1 ∧ Ext s b.2 [] ∧ b.2.vars = s.vars ∧ b.2.rules = s.rules := by
  unfold Pres.bind at h
  obtain ⟨n, hn, h⟩ := bind_ok h
  simp only [Except.ok.injEq] at h
  subst h
  exact ⟨responseName_ok hs hn, ⟨by simp, fun _ _ h => h, ⟨[], by simp⟩, ⟨hs.inv, hs.known, hs.nodup⟩⟩, rfl, rfl⟩

/-! ## Elements that ask nothing -/

/-- An element that stands on its own and asks nothing. -/
def Quiet (e : Elt) : Prop := Std e ∧ interactions e = []

theorem quiet_material (hot : Bool) (m : Material) (h : Mat PlainPiece m) : ∀ e ∈ materialElts hot m, Quiet e := by
  intro e he
  refine ⟨std_material hot m h e he, ?_⟩
  have := interactions_material hot m h
  rw [interactionsAll_flatMap, List.flatMap_eq_nil_iff] at this
  exact this e he

theorem interactions_quiet {es : List Elt} (h : ∀ e ∈ es, Quiet e) : interactionsAll es = [] := by
  rw [interactionsAll_flatMap, List.flatMap_eq_nil_iff]
  exact fun e he => (h e he).2

theorem collectLabels_frame (thing : Option LabelThing) (hot : Bool) (level : Nat) (ls : List Label) :
    ∀ r r', collectLabels thing hot level ls r = .ok r' → r'.pre = r.pre ∧ (r'.post = r.post ∨ r'.post = []) := by
  induction ls with
  | nil => intro r r' h; simp only [collectLabels, Except.ok.injEq] at h; rw [h]; exact ⟨rfl, .inl rfl⟩
  | cons l ls ih =>
    intro r r' h
    simp only [collectLabels] at h
    obtain ⟨m, _, h⟩ := bind_ok h
    match m, h with
    | none, h => exact ih _ _ h
    | some (.blank _), h => cases h
    | some (.elt e), h =>
      obtain ⟨h1, h2⟩ := ih _ _ h
      exact ⟨h1, .inr (by rcases h2 with h2 | h2 <;> rw [h2]; rfl)⟩

theorem collect_quiet (thing : Option LabelThing) (hot : Bool) (level : Nat) (items : List RItem)
    (hm : ∀ m ∈ matsOf items, Mat PlainPiece m) :
    ∀ r r', (∀ e ∈ r.pre ++ r.post, Quiet e) → collect thing hot level items r = .ok r' →
      ∀ e ∈ r'.pre ++ r'.post, Quiet e := by
  induction items with
  | nil => intro r r' hr h; simp only [collect, Except.ok.injEq] at h; rw [← h]; exact hr
  | cons i is ih =>
    intro r r' hr h
    cases i with
    | mat m =>
      rw [matsOf_cons_mat] at hm
      simp only [collect] at h
      refine ih (fun x hx => hm x (by simp [hx])) _ _ ?_ h
      have hq := quiet_material hot m (hm m (by simp))
      intro e he
      rw [foldl_append] at he
      split at he <;> simp only [List.mem_append] at he hr
      · rcases he with (he | he) | he
        · exact hr e (.inl he)
        · exact hq e he
        · exact hr e (.inr he)
      · rcases he with he | he | he
        · exact hr e (.inl he)
        · exact hr e (.inr he)
        · exact hq e he
    | labels t =>
      rw [matsOf_cons_labels] at hm
      simp only [collect] at h
      obtain ⟨c, hc, h⟩ := bind_ok h
      obtain ⟨h1, h2⟩ := collectLabels_frame thing hot level _ _ _ hc
      refine ih hm _ _ ?_ h
      intro e he
      rw [h1] at he
      rcases h2 with h2 | h2 <;> rw [h2] at he
      · exact hr e he
      · simp only [List.append_nil] at he; exact hr e (List.mem_append_left _ he)

theorem isInline_imagesOf : ∀ (e : Elt) r, imagesOf e = .ok r → isInline r.2 = isInline e ∧ isBlock r.2 = isBlock e := by
  intro e r h
  unfold imagesOf at h
  split at h
  all_goals first
    | (obtain ⟨x, _, h⟩ := bind_ok h; simp only [Except.ok.injEq] at h; subst h; exact ⟨rfl, rfl⟩)
    | (simp only [Except.ok.injEq] at h; subst h; exact ⟨rfl, rfl⟩)

mutual
theorem interactions_imagesOf : ∀ (e : Elt) r, imagesOf e = .ok r → interactions e = [] → interactions r.2 = []
  | .inline name b kids, r, h, hq => by
    simp only [imagesOf] at h
    obtain ⟨x, hx, h⟩ := bind_ok h
    simp only [Except.ok.injEq] at h; subst h
    simp only [interactions] at hq ⊢
    exact interactions_imagesIn kids x hx hq
  | .div b kids, r, h, hq => by
    simp only [imagesOf] at h
    obtain ⟨x, hx, h⟩ := bind_ok h
    simp only [Except.ok.injEq] at h; subst h
    simp only [interactions] at hq ⊢
    exact interactions_imagesIn kids x hx hq
  | .p b kids, r, h, hq => by
    simp only [imagesOf] at h
    obtain ⟨x, hx, h⟩ := bind_ok h
    simp only [Except.ok.injEq] at h; subst h
    simp only [interactions] at hq ⊢
    exact interactions_imagesIn kids x hx hq
  | .pre b kids, r, h, hq => by
    simp only [imagesOf] at h
    obtain ⟨x, hx, h⟩ := bind_ok h
    simp only [Except.ok.injEq] at h; subst h
    simp only [interactions] at hq ⊢
    exact interactions_imagesIn kids x hx hq
  | .blockquote b kids, r, h, hq => by
    simp only [imagesOf] at h
    obtain ⟨x, hx, h⟩ := bind_ok h
    simp only [Except.ok.injEq] at h; subst h
    simp only [interactions] at hq ⊢
    exact interactions_imagesIn kids x hx hq
  | .text .., r, h, hq => by simp only [imagesOf, Except.ok.injEq] at h; subst h; exact hq
  | .br .., r, h, hq => by simp only [imagesOf, Except.ok.injEq] at h; subst h; exact hq
  | .img .., r, h, hq => by simp only [imagesOf, Except.ok.injEq] at h; subst h; exact hq
  | .object .., r, h, hq => by simp only [imagesOf, Except.ok.injEq] at h; subst h; exact hq
  | .list .., r, h, hq => by simp only [imagesOf, Except.ok.injEq] at h; subst h; exact hq
  | .li .., r, h, hq => by simp only [imagesOf, Except.ok.injEq] at h; subst h; exact hq
  | .table .., r, h, hq => by simp only [imagesOf, Except.ok.injEq] at h; subst h; exact hq
  | .tbody .., r, h, hq => by simp only [imagesOf, Except.ok.injEq] at h; subst h; exact hq
  | .tr .., r, h, hq => by simp only [imagesOf, Except.ok.injEq] at h; subst h; exact hq
  | .cell .., r, h, hq => by simp only [imagesOf, Except.ok.injEq] at h; subst h; exact hq
  | .rubric .., r, h, hq => by simp only [imagesOf, Except.ok.injEq] at h; subst h; exact hq
  | .prompt .., r, h, hq => by simp only [imagesOf, Except.ok.injEq] at h; subst h; exact hq
  | .choiceInteraction .., r, h, hq => by simp only [imagesOf, Except.ok.injEq] at h; subst h; exact hq
  | .orderInteraction .., r, h, hq => by simp only [imagesOf, Except.ok.injEq] at h; subst h; exact hq
  | .associateInteraction .., r, h, hq => by simp only [imagesOf, Except.ok.injEq] at h; subst h; exact hq
  | .simpleChoice .., r, h, hq => by simp only [imagesOf, Except.ok.injEq] at h; subst h; exact hq
  | .simpleAssociableChoice .., r, h, hq => by simp only [imagesOf, Except.ok.injEq] at h; subst h; exact hq
  | .extendedText .., r, h, hq => by simp only [imagesOf, Except.ok.injEq] at h; subst h; exact hq
  | .textEntry .., r, h, hq => by simp only [imagesOf, Except.ok.injEq] at h; subst h; exact hq
  | .hotspot .., r, h, hq => by simp only [imagesOf, Except.ok.injEq] at h; subst h; exact hq
  | .selectPoint .., r, h, hq => by simp only [imagesOf, Except.ok.injEq] at h; subst h; exact hq
  | .graphicOrder .., r, h, hq => by simp only [imagesOf, Except.ok.injEq] at h; subst h; exact hq
  | .hotspotChoice .., r, h, hq => by simp only [imagesOf, Except.ok.injEq] at h; subst h; exact hq
  | .slider .., r, h, hq => by simp only [imagesOf, Except.ok.injEq] at h; subst h; exact hq
theorem interactions_imagesIn : ∀ (es : List Elt) r, imagesIn es = .ok r → interactionsAll es = [] →
    interactionsAll r.2 = []
  | [], r, h, hq => by simp only [imagesIn, Except.ok.injEq] at h; subst h; rfl
  | e :: es, r, h, hq => by
    simp only [interactionsAll, List.append_eq_nil_iff] at hq
    by_cases ho : ∃ d t w hh, e = .object d t w hh
    · obtain ⟨d, t, w, hh, rfl⟩ := ho
      simp only [imagesIn] at h
      obtain ⟨b, _, h⟩ := bind_ok h
      obtain ⟨x, hx, h⟩ := bind_ok h
      have := interactions_imagesIn es x hx hq.2
      split at h <;> simp only [Except.ok.injEq] at h <;> subst h
      · exact this
      · simp [interactionsAll, interactions, this]
    · rw [imagesIn] at h
      · obtain ⟨x, hx, h⟩ := bind_ok h
        obtain ⟨y, hy, h⟩ := bind_ok h
        simp only [Except.ok.injEq] at h; subst h
        simp [interactionsAll, interactions_imagesOf e x hx hq.1, interactions_imagesIn es y hy hq.2]
      · intro d t w hh e; exact ho ⟨d, t, w, hh, e⟩
end

theorem std_imagesIn : ∀ (es : List Elt) r, imagesIn es = .ok r → (∀ e ∈ es, Std e) → ∀ e ∈ r.2, Std e
  | [], r, h, hq => by simp only [imagesIn, Except.ok.injEq] at h; subst h; simp
  | e :: es, r, h, hq => by
    have hq' : ∀ e ∈ es, Std e := fun x hx => hq x (by simp [hx])
    by_cases ho : ∃ d t w hh, e = .object d t w hh
    · obtain ⟨d, t, w, hh, rfl⟩ := ho
      simp only [imagesIn] at h
      obtain ⟨b, _, h⟩ := bind_ok h
      obtain ⟨x, hx, h⟩ := bind_ok h
      have := std_imagesIn es x hx hq'
      split at h <;> simp only [Except.ok.injEq] at h <;> subst h
      · exact this
      · intro y hy
        rcases List.mem_cons.1 hy with rfl | hy
        · exact .inl rfl
        · exact this y hy
    · rw [imagesIn] at h
      · obtain ⟨x, hx, h⟩ := bind_ok h
        obtain ⟨y, hy, h⟩ := bind_ok h
        simp only [Except.ok.injEq] at h; subst h
        intro z hz
        rcases List.mem_cons.1 hz with rfl | hz
        · have := isInline_imagesOf e x hx
          have he := hq e (by simp)
          unfold Std at he ⊢
          rw [this.1, this.2]; exact he
        · exact std_imagesIn es y hy hq' z hz
      · intro d t w hh e; exact ho ⟨d, t, w, hh, e⟩

theorem quiet_imagesIn (es : List Elt) (r) (h : imagesIn es = .ok r) (hq : ∀ e ∈ es, Quiet e) : ∀ e ∈ r.2, Quiet e := by
  intro e he
  refine ⟨std_imagesIn es r h (fun e he => (hq e he).1) e he, ?_⟩
  have := interactions_imagesIn es r h (interactions_quiet hq)
  rw [interactionsAll_flatMap, List.flatMap_eq_nil_iff] at this
  exact this e he

/-! ## Interactions and kinds of responses -/

theorem interactions_elt (i : Inter) (n : Str) (p : List Elt) : interactions (i.elt n p) = [i.elt n p] := by
  cases i <;> rfl
theorem responseOf_elt (i : Inter) (n : Str) (p : List Elt) : responseOf (i.elt n p) = n := by
  cases i <;> rfl
theorem std_elt (i : Inter) (n : Str) (p : List Elt) : Std (i.elt n p) := by
  cases i <;> simp [Std, Inter.elt, isInline, isBlock]

/-- Does an element ask for text or a number? -/
def RKind.isText : RKind → Prop
  | .str | .num _ => True
  | _ => False

/-- The base types of a kind of response. -/
def BaseOk : RKind → Base → Prop
  | .lid, b => b = .identifier
  | .xy, b => b = .point
  | .grp, b => b = .pair
  | .str, b => b = .string ∨ b = .float
  | .num none, b => b = .identifier ∨ b = .integer ∨ b = .float
  | .num (some _), b => b = .integer ∨ b = .float

/-- A base type for text. -/
def TextBase (b : Base) : Prop := b = .string ∨ b = .integer ∨ b = .float

/-- The interactions of a kind of response. -/
def FitsI (kind : RKind) (card : Card) : Inter → Prop
  | .choice .. => kind = .lid ∧ card ≠ .ordered
  | .order .. => kind = .lid ∧ card = .ordered
  | .associate .. => kind = .grp ∧ card ≠ .ordered
  | .extended .. => RKind.isText kind
  | .textEntry .. => RKind.isText kind ∧ card = .single
  | .hotspot .. => kind = .lid ∧ card ≠ .ordered
  | .selectPoint .. => kind = .xy ∧ card ≠ .ordered
  | .graphicOrder .. => kind = .lid ∧ card = .ordered
  | .slider .. => (∃ n, kind = .num n) ∧ card = .single

theorem textBase_text {b : Base} (h : TextBase b) :
    b.text = "string".toList ∨ b.text = "integer".toList ∨ b.text = "float".toList := by
  rcases h with rfl | rfl | rfl
  · exact .inl rfl
  · exact .inr (.inl rfl)
  · exact .inr (.inr rfl)

theorem notOrdered_text {c : Card} (h : c ≠ .ordered) : c.text = "single".toList ∨ c.text = "multiple".toList := by
  cases c with
  | single => exact .inl rfl
  | multiple => exact .inr rfl
  | ordered => exact absurd rfl h

theorem baseOk_text {kind : RKind} (hk : kind ≠ .num none) (ht : RKind.isText kind) {b : Base} (hb : BaseOk kind b) :
    TextBase b := by
  match kind, hk, ht, hb with
  | .str, _, _, .inl h => exact .inl h
  | .str, _, _, .inr h => exact .inr (.inr h)
  | .num (some _), _, _, h => exact .inr h
  | .num none, hk, _, _ => exact absurd rfl hk

theorem fits_elt {kind : RKind} {card : Card} {base : Base} {i : Inter} (hk : kind ≠ .num none) (hb : BaseOk kind base)
    (h : FitsI kind card i) (n : Str) (p : List Elt) : Suits (i.elt n p) card.text base.text := by
  cases i with
  | choice => obtain ⟨rfl, hc⟩ := h; simp only [BaseOk] at hb; subst hb; exact ⟨notOrdered_text hc, rfl⟩
  | order => obtain ⟨rfl, hc⟩ := h; simp only [BaseOk] at hb; subst hb; subst hc; exact ⟨rfl, rfl⟩
  | associate => obtain ⟨rfl, hc⟩ := h; simp only [BaseOk] at hb; subst hb; exact ⟨notOrdered_text hc, rfl⟩
  | extended =>
    refine ⟨?_, textBase_text (baseOk_text hk h hb)⟩
    cases card with
    | single => exact .inl rfl
    | multiple => exact .inr (.inl rfl)
    | ordered => exact .inr (.inr rfl)
  | textEntry => obtain ⟨ht, rfl⟩ := h; exact ⟨rfl, textBase_text (baseOk_text hk ht hb)⟩
  | hotspot => obtain ⟨rfl, hc⟩ := h; simp only [BaseOk] at hb; subst hb; exact ⟨notOrdered_text hc, rfl⟩
  | selectPoint => obtain ⟨rfl, hc⟩ := h; simp only [BaseOk] at hb; subst hb; exact ⟨notOrdered_text hc, rfl⟩
  | graphicOrder => obtain ⟨rfl, hc⟩ := h; simp only [BaseOk] at hb; subst hb; subst hc; exact ⟨rfl, rfl⟩
  | slider =>
    obtain ⟨⟨nt, rfl⟩, rfl⟩ := h
    cases nt with
    | none => exact absurd rfl hk
    | some v =>
      refine ⟨rfl, ?_⟩
      rcases hb with rfl | rfl
      · exact .inl rfl
      · exact .inr rfl

/-- The state of a response while its contents are read, with the responses declared for its blanks. -/
structure RB (kind : RKind) (card : Card) (ident : Str) (s : ItemSt) (r : RespSt) (new : List Decl) : Prop where
  std : ∀ e ∈ r.pre ++ r.post, Std e
  ids : (interactionsAll (r.pre ++ r.post)).map responseOf = new.map (·.identifier)
  len : new.length = r.index
  resp : ∀ d ∈ new, d.outcome = false ∧ d.cardinality = "single".toList ∧
    (d.baseType = "string".toList ∨ d.baseType = "integer".toList ∨ d.baseType = "float".toList)
  entries : ∀ e ∈ interactionsAll (r.pre ++ r.post), ∃ n c a, e = .textEntry n c a
  post : r.inter = none → r.post = []
  base : BaseOk kind r.baseType
  fits : ∀ i, r.inter = some i → FitsI kind card i
  index : ∀ (k : Nat) d, new[k]? = some d → get s.vars.responses (indexedIdent ident (k + 1)) = some d.identifier

theorem RB.append {kind : RKind} {card : Card} {ident : Str} {s : ItemSt} {r : RespSt} {new : List Decl}
    (h : RB kind card ident s r new) {es : List Elt} (hq : ∀ e ∈ es, Quiet e) :
    RB kind card ident s (r.appendAll es) new := by
  have hz : ∀ a b : List Elt, interactionsAll (a ++ es ++ b) = interactionsAll (a ++ b) := by
    intro a b; simp [interactionsAll_append, interactions_quiet hq]
  rw [appendAll_eq]
  split
  · rename_i hs
    have e1 : r.pre ++ (r.post ++ es) = (r.pre ++ r.post) ++ es ++ [] := by simp
    refine ⟨?_, ?_, h.len, h.resp, ?_, ?_, h.base, h.fits, h.index⟩
    · intro e he
      simp only [e1, List.append_nil] at he
      rcases List.mem_append.1 he with he | he
      · exact h.std e he
      · exact (hq e he).1
    · simp only [e1]; rw [hz, List.append_nil]; exact h.ids
    · simp only [e1]; rw [hz, List.append_nil]; exact h.entries
    · intro hn; simp only at hn; rw [hn] at hs; cases hs
  · refine ⟨?_, ?_, h.len, h.resp, ?_, h.post, h.base, h.fits, h.index⟩
    · intro e he
      rcases List.mem_append.1 he with he | he
      · rcases List.mem_append.1 he with he | he
        · exact h.std e (List.mem_append_left _ he)
        · exact (hq e he).1
      · exact h.std e (List.mem_append_right _ he)
    · simp only; rw [hz]; exact h.ids
    · simp only; rw [hz]; exact h.entries

theorem RB.setInter {kind : RKind} {card : Card} {ident : Str} {s : ItemSt} {r : RespSt} {new : List Decl}
    (h : RB kind card ident s r new) {i : Inter} (hi : FitsI kind card i) (d : Option FloatVal) :
    RB kind card ident s { r with inter := some i, default := d } new :=
  ⟨h.std, h.ids, h.len, h.resp, h.entries, by simp, h.base,
    by intro j hj; simp only [Option.some.injEq] at hj; rw [← hj]; exact hi, h.index⟩

theorem RB.setBase {kind : RKind} {card : Card} {ident : Str} {s : ItemSt} {r : RespSt} {new : List Decl}
    (h : RB kind card ident s r new) {b : Base} (hb : BaseOk kind b) :
    RB kind card ident s { r with baseType := b } new :=
  ⟨h.std, h.ids, h.len, h.resp, h.entries, h.post, hb, h.fits, h.index⟩

theorem choiceThing_fits {kind : RKind} {card : Card} {sh : Bool} {mx : Option Int} {t : LabelThing × (List Elt → Inter)}
    (h : choiceThing kind card sh mx = some t) (cs : List Elt) : FitsI kind card (t.2 cs) := by
  cases kind <;> cases card <;> simp [choiceThing] at h <;> subst h <;> simp [FitsI]

theorem renderChoice_rb {kind : RKind} {card : Card} {ident : Str} {s : ItemSt} {level : Nat}
    {shuffle maxnumber : Option Str} {items : List RItem} {r r' : RespSt} {new : List Decl}
    (hr : RB kind card ident s r new) (hp : ItemsP PlainPiece items)
    (h : renderChoice kind card level shuffle maxnumber items r = .ok r') : RB kind card ident s r' new := by
  unfold renderChoice at h
  obtain ⟨c, hc, h⟩ := bind_ok h
  have hq := collect_quiet _ _ _ _ hp.1 _ _ (by simp) hc
  have h1 : RB kind card ident s (r.appendAll c.pre) new := hr.append fun e he => hq e (List.mem_append_left _ he)
  simp only [Except.ok.injEq] at h
  subst h
  refine RB.append ?_ fun e he => hq e (List.mem_append_right _ he)
  split
  · rename_i t ht; exact h1.setInter (choiceThing_fits ht _) _
  · exact h1

theorem renderHotspot_rb {kind : RKind} {card : Card} {ident : Str} {s : ItemSt} {level : Nat}
    {maxnumber : Option Str} {items : List RItem} {r r' : RespSt} {new : List Decl}
    (hr : RB kind card ident s r new) (hp : ItemsP PlainPiece items)
    (h : renderHotspot kind card level maxnumber items r = .ok r') : RB kind card ident s r' new := by
  unfold renderHotspot at h
  obtain ⟨th, hth, h⟩ := bind_ok h
  obtain ⟨c, hc, h⟩ := bind_ok h
  obtain ⟨a, ha, h⟩ := bind_ok h
  obtain ⟨b, hb, h⟩ := bind_ok h
  have hq := collect_quiet _ _ _ _ hp.1 _ _ (by simp) hc
  have h1 : RB kind card ident s (r.appendAll a.2) new :=
    hr.append (quiet_imagesIn _ _ ha fun e he => hq e (List.mem_append_left _ he))
  simp only [Except.ok.injEq] at h
  subst h
  refine RB.append ?_ (quiet_imagesIn _ _ hb fun e he => hq e (List.mem_append_right _ he))
  split
  · rename_i im t _ ht
    refine h1.setInter ?_ _
    cases kind <;> cases card <;> simp [hotThing] at hth <;> subst hth <;> simp at ht <;> subst ht <;>
      simp [hotInter, FitsI]
  · exact h1

theorem renderSlider_rb {kind : RKind} {card : Card} {ident : Str} {s : ItemSt} {level : Nat} {o : Option Str}
    {lo up st sv : Option (Option FloatVal)} {sl : Option Str} {items : List RItem} {r r' : RespSt} {new : List Decl}
    (hr : RB kind card ident s r new) (hp : ItemsP PlainPiece items)
    (h : renderSlider kind card level o lo up st sv sl items r = .ok r') : RB kind card ident s r' new := by
  unfold renderSlider at h
  obtain ⟨th, hth, h⟩ := bind_ok h
  obtain ⟨c, hc, h⟩ := bind_ok h
  obtain ⟨q, hq', h⟩ := bind_ok h
  have hq := collect_quiet _ _ _ _ hp.1 _ _ (by simp) hc
  have h1 : RB kind card ident s (r.appendAll c.pre) new := hr.append fun e he => hq e (List.mem_append_left _ he)
  simp only [Except.ok.injEq] at h
  subst h
  refine RB.append ?_ fun e he => hq e (List.mem_append_right _ he)
  split at hq'
  · rename_i hth1
    obtain ⟨i, hi, hq'⟩ := bind_ok hq'
    have e := (Except.ok.inj hq').symm
    rw [e]
    refine h1.setInter ?_ _
    cases kind with
    | lid =>
      cases card <;> simp only [sliderThing, Except.ok.injEq] at hth <;> subst hth <;> simp at hth1
      simp only [sliderInter, Except.ok.injEq] at hi; subst hi; simp [FitsI]
    | num nt =>
      cases card with
      | single =>
        simp only [sliderInter] at hi
        split at hi
        · cases hi
        · simp only [Except.ok.injEq] at hi; subst hi; exact ⟨⟨nt, rfl⟩, rfl⟩
      | multiple => simp only [sliderThing, Except.ok.injEq] at hth; subst hth; simp at hth1
      | ordered => simp only [sliderThing, Except.ok.injEq] at hth; subst hth; simp at hth1
    | xy => simp only [sliderThing, Except.ok.injEq] at hth; subst hth; simp at hth1
    | str => simp only [sliderThing, Except.ok.injEq] at hth; subst hth; simp at hth1
    | grp => simp only [sliderThing, Except.ok.injEq] at hth; subst hth; simp at hth1
  · simp only [Except.ok.injEq] at hq'; subst hq'; exact h1

theorem readFibtype_text (ft : Option Str) : TextBase (readFibtype ft) := by
  unfold readFibtype
  split
  · exact .inl rfl
  · dsimp only
    split
    · exact .inl rfl
    · split
      · exact .inr (.inl rfl)
      · split
        · exact .inr (.inr rfl)
        · exact .inl rfl

theorem fibTypes_ok {ff : Bool} {kind : RKind} {ft : Option Str} {base : Base} {t : Base × Base} (hb : BaseOk kind base)
    (h : fibTypes ff kind ft base = .ok t) : RKind.isText kind ∧ BaseOk kind t.2 ∧ TextBase t.2 := by
  have hf := readFibtype_text ft
  cases ff with
  | true =>
    cases kind <;> simp [fibTypes] at h <;> subst h
    · exact ⟨trivial, .inr rfl, .inr (.inr rfl)⟩
    · rename_i n; cases n
      · exact ⟨trivial, .inr (.inr rfl), .inr (.inr rfl)⟩
      · exact ⟨trivial, .inr rfl, .inr (.inr rfl)⟩
  | false =>
    cases kind with
    | str =>
      have hb' : TextBase base := by rcases hb with h | h <;> simp [TextBase, h]
      simp only [fibTypes, Bool.false_eq_true, if_false] at h
      split at h <;> simp only [Except.ok.injEq] at h <;> subst h <;> exact ⟨trivial, hb, hb'⟩
    | num n =>
      simp only [fibTypes, Bool.false_eq_true, if_false] at h
      split at h
      · simp only [Except.ok.injEq] at h
        subst h
        cases n
        · exact ⟨trivial, .inr (.inr rfl), .inr (.inr rfl)⟩
        · exact ⟨trivial, .inr rfl, .inr (.inr rfl)⟩
      · rename_i he
        simp only [Except.ok.injEq] at h
        subst h
        have he : readFibtype ft = base := by
          refine Classical.byContradiction fun hne => he hne
        exact ⟨trivial, hb, he ▸ hf⟩
    | lid => simp [fibTypes] at h
    | xy => simp [fibTypes] at h
    | grp => simp [fibTypes] at h

theorem fibSingle_rb {kind : RKind} {card : Card} {ident : Str} {s : ItemSt} {i : Inter} (hi : FitsI kind card i)
    (cs : List FibChild) (hq : ∀ e, Made.elt e ∈ cs → Quiet e) : ∀ {r : RespSt} {new : List Decl},
    RB kind card ident s r new → RB kind card ident s (fibSingle i cs r) new := by
  induction cs with
  | nil => intro r new h; exact h
  | cons c cs ih =>
    intro r new h
    cases c with
    | blank n => exact ih (fun e he => hq e (by simp [he])) (h.setInter hi r.default)
    | elt e => exact ih (fun e he => hq e (by simp [he])) (h.append (es := [e]) (by simpa using hq e (by simp)))

/-- Each blank has a response of its own, which is declared for it. -/
theorem fibIndexed_rb {kind : RKind} {card : Card} {ident : Str} {i : Inter} (hi : ∃ c a, i = .textEntry c a)
    (cs : List FibChild) (hq : ∀ e, Made.elt e ∈ cs → Quiet e) : ∀ {r r' : RespSt} {s s' : ItemSt} {new : List Decl},
    Good s → RB kind card ident s r new → TextBase r.baseType → fibIndexed ident i cs r s = .ok (r', s') →
      ∃ more, RB kind card ident s' r' (new ++ more) ∧ Ext s s' more ∧ s'.rules = s.rules ∧
        r'.index = r.index + cs.countP Made.isBlank ∧ r'.inter = r.inter ∧ r'.baseType = r.baseType := by
  induction cs with
  | nil =>
    intro r r' s s' new hs h hb he
    simp only [fibIndexed, Except.ok.injEq, Prod.mk.injEq] at he
    obtain ⟨rfl, rfl⟩ := he
    exact ⟨[], by simpa using h, Ext.refl hs, rfl, by simp, rfl, rfl⟩
  | cons c cs ih =>
    intro r r' s s' new hs h hb he
    cases c with
    | elt e =>
      simp only [fibIndexed] at he
      have h' := h.append (es := [e]) (by simpa using hq e (by simp))
      obtain ⟨more, a1, a2, a3, a4, a5, a6⟩ := ih (fun e he => hq e (by simp [he])) hs h' (by rw [appendAll_base]; exact hb) he
      refine ⟨more, a1, a2, a3, ?_, ?_, ?_⟩
      · rw [a4]
        have : (r.append e).index = r.index := appendAll_index [e] r
        show (r.appendAll [e]).index + _ = _
        rw [appendAll_index, List.countP_cons]; simp [Made.isBlank]
      · rw [a5]; exact appendAll_inter [e] r
      · rw [a6]; exact appendAll_base [e] r
    | blank n =>
      simp only [fibIndexed] at he
      obtain ⟨s1, hs1, he⟩ := bind_ok he
      obtain ⟨b, hb1, he⟩ := bind_ok he
      obtain ⟨d, d1, d2, d3, d4, d5, d6, d7, d8, _⟩ := declare_ok hs hs1
      obtain ⟨e1, e2, e3, e4⟩ := bind_bound d1.good hb1
      obtain ⟨tc, ta, rfl⟩ := hi
      have hbd : b.1 = d.identifier := by
        rw [d5] at e1; exact (Option.some.inj e1).symm
      have hnew : RB kind card ident b.2
          (RespSt.append { r with index := r.index + 1 } (Inter.elt b.1 [] (.textEntry tc ta))) (new ++ [d]) := by
        have hidx : ∀ (k : Nat) x, (new ++ [d])[k]? = some x →
            get b.2.vars.responses (indexedIdent ident (k + 1)) = some x.identifier := by
          intro k x hx
          rw [e3]
          by_cases hk : k < new.length
          · rw [List.getElem?_append_left hk] at hx
            exact d1.kept _ _ (h.index k x hx)
          · rw [List.getElem?_append_right (by omega)] at hx
            have hk0 : k - new.length = 0 := by
              rcases Nat.eq_zero_or_pos (k - new.length) with h0 | h0
              · exact h0
              · rw [List.getElem?_eq_none (by simp only [List.length_cons, List.length_nil]; omega)] at hx; cases hx
            rw [hk0] at hx
            simp only [List.getElem?_cons_zero, Option.some.injEq] at hx
            subst hx
            have : k = r.index := by have := h.len; omega
            rw [this]; exact d5
        have hresp : ∀ x ∈ new ++ [d], x.outcome = false ∧ x.cardinality = "single".toList ∧
            (x.baseType = "string".toList ∨ x.baseType = "integer".toList ∨ x.baseType = "float".toList) := by
          intro x hx
          rcases List.mem_append.1 hx with hx | hx
          · exact h.resp x hx
          · simp only [List.mem_singleton] at hx; subst hx
            exact ⟨d2, d3, by rw [d4]; exact textBase_text hb⟩
        have hall : ∀ es : List Elt, interactionsAll (es ++ [Inter.elt b.1 [] (.textEntry tc ta)]) =
            interactionsAll es ++ [.textEntry b.1 { classid := tc } ta] := by
          intro es; simp [interactionsAll_append, interactionsAll, interactions, Inter.elt]
        unfold RespSt.append
        split
        · rename_i hsome
          refine ⟨?_, ?_, by simp [h.len], hresp, ?_, ?_, h.base, h.fits, hidx⟩
          · intro e he
            simp only [← List.append_assoc] at he
            rcases List.mem_append.1 he with he | he
            · exact h.std e he
            · simp only [List.mem_singleton] at he; subst he; exact std_elt _ _ _
          · simp only [← List.append_assoc]
            rw [hall, List.map_append, h.ids]
            simp [responseOf, hbd]
          · simp only [← List.append_assoc]
            intro e he
            rw [hall] at he
            rcases List.mem_append.1 he with he | he
            · exact h.entries e he
            · simp only [List.mem_singleton] at he; exact ⟨_, _, _, he⟩
          · intro hn; simp only at hn hsome; rw [hn] at hsome; cases hsome
        · rename_i hnone
          have hn : r.inter = none := by simpa using hnone
          have hpost := h.post hn
          have hids := h.ids
          have hent := h.entries
          have hstd := h.std
          rw [hpost, List.append_nil] at hids hent hstd
          refine ⟨?_, ?_, by simp [h.len], hresp, ?_, h.post, h.base, h.fits, hidx⟩
          · intro e he
            simp only [hpost, List.append_nil] at he
            rcases List.mem_append.1 he with he | he
            · exact hstd e he
            · simp only [List.mem_singleton] at he; subst he; exact std_elt _ _ _
          · simp only [hpost, List.append_nil]
            rw [hall, List.map_append, hids]
            simp [responseOf, hbd]
          · simp only [hpost, List.append_nil]
            intro e he
            rw [hall] at he
            rcases List.mem_append.1 he with he | he
            · exact hent e he
            · simp only [List.mem_singleton] at he; exact ⟨_, _, _, he⟩
      have hbase : ∀ e, (RespSt.append { r with index := r.index + 1 } e).baseType = r.baseType :=
        fun e => appendAll_base [e] _
      obtain ⟨more, a1, a2, a3, a4, a5, a6⟩ := ih (fun e he => hq e (by simp [he])) e2.good hnew
        (by rw [hbase]; exact hb) he
      refine ⟨[d] ++ more, by rw [← List.append_assoc]; exact a1, ?_, by rw [a3, e4, d8], ?_, ?_, ?_⟩
      · have := (d1.trans e2).trans a2
        simpa using this
      · rw [a4]
        have : ∀ e, (RespSt.append { r with index := r.index + 1 } e).index = r.index + 1 := fun e => appendAll_index [e] _
        rw [this, List.countP_cons]; simp [Made.isBlank]; omega
      · rw [a5]; exact appendAll_inter [_] _
      · rw [a6, hbase]

theorem fibChildren_quiet (level : Nat) (items : List RItem) (hp : ∀ m ∈ matsOf items, Mat PlainPiece m)
    (cs : List FibChild) (h : fibChildren level items = .ok cs) : ∀ e, Made.elt e ∈ cs → Quiet e := by
  rw [fibChildren_eq level items cs h]
  intro e he
  obtain ⟨i, hi, he⟩ := List.mem_flatMap.1 he
  cases i with
  | mat m =>
    obtain ⟨x, hx, e1⟩ := List.mem_map.1 he
    simp only [Made.elt.injEq] at e1
    subst e1
    refine quiet_material false m (hp m ?_) x hx
    exact List.mem_flatMap.2 ⟨.mat m, hi, by simp⟩
  | labels t =>
    obtain ⟨x, _, e1⟩ := List.mem_map.1 he
    cases e1

theorem renderFib_rb {ff : Bool} {kind : RKind} {card : Card} {ident : Str} {level : Nat}
    {ft ro co mc pr mx : Option Str} {items : List RItem} {r r' : RespSt} {s s' : ItemSt} {new : List Decl}
    (hs : Good s) (hr : RB kind card ident s r new) (hp : ItemsP PlainPiece items)
    (h : renderFib ff kind card ident level ft ro co mc pr mx items r s = .ok (r', s')) :
    ∃ more, RB kind card ident s' r' (new ++ more) ∧ Ext s s' more := by
  unfold renderFib at h
  obtain ⟨t, ht, h⟩ := bind_ok h
  obtain ⟨cs, hcs, h⟩ := bind_ok h
  obtain ⟨t1, t2, t3⟩ := fibTypes_ok hr.base ht
  have hq := fibChildren_quiet level items hp.1 cs hcs
  have hr2 := hr.setBase t2
  simp only at h
  split at h
  · split at h
    · rename_i hcard
      simp only [Except.ok.injEq, Prod.mk.injEq] at h
      obtain ⟨rfl, rfl⟩ := h
      have hf : FitsI kind card (.textEntry (fibClass pr) (fibAtts t.1 (fibLength ro co mc))) := ⟨t1, hcard⟩
      exact ⟨[], by rw [List.append_nil]; exact fibSingle_rb hf cs hq hr2, Ext.refl hs⟩
    · obtain ⟨more, a1, a2, _⟩ := fibIndexed_rb ⟨_, _, rfl⟩ cs hq hs hr2 t3 h
      exact ⟨more, a1, a2⟩
  · simp only [Except.ok.injEq, Prod.mk.injEq] at h
    obtain ⟨rfl, rfl⟩ := h
    refine ⟨[], ?_, Ext.refl hs⟩
    simp only [List.append_nil]
    exact hr2.setInter (i := .extended (fibClass pr) (fibAtts t.1 (fibLength ro co mc)) _) t1 r.default

theorem renderOne_rb {ff : Bool} {kind : RKind} {card : Card} {ident : Str} {level : Nat} {k : Render}
    {items : List RItem} {r : RespSt} {s : ItemSt} {q : RespSt × ItemSt} {new : List Decl}
    (hs : Good s) (hr : RB kind card ident s r new) (hp : ItemsP PlainPiece items)
    (h : renderOne ff kind card ident level k items r s = .ok q) :
    ∃ more, RB kind card ident q.2 q.1 (new ++ more) ∧ Ext s q.2 more := by
  unfold renderOne at h
  cases k with
  | choice sh mx =>
    simp only at h
    obtain ⟨x, hx, h⟩ := bind_ok h
    simp only [Except.ok.injEq] at h
    subst h
    exact ⟨[], by simpa using renderChoice_rb hr hp hx, Ext.refl hs⟩
  | hotspot mx =>
    simp only at h
    obtain ⟨x, hx, h⟩ := bind_ok h
    simp only [Except.ok.injEq] at h
    subst h
    exact ⟨[], by simpa using renderHotspot_rb hr hp hx, Ext.refl hs⟩
  | slider o lo up st sv sl =>
    simp only at h
    obtain ⟨x, hx, h⟩ := bind_ok h
    simp only [Except.ok.injEq] at h
    subst h
    exact ⟨[], by simpa using renderSlider_rb hr hp hx, Ext.refl hs⟩
  | fib ft ro co mc pr mx => exact renderFib_rb hs hr hp (s' := q.2) h

theorem respItems_rb {ff : Bool} {kind : RKind} {card : Card} {ident : Str} {level : Nat} (is : List RespItem)
    (hp : ∀ i ∈ is, RespItemP PlainPiece i) : ∀ {r r' : RespSt} {s s' : ItemSt} {new : List Decl},
    Good s → RB kind card ident s r new → respItems ff kind card ident level is r s = .ok (r', s') →
      ∃ more, RB kind card ident s' r' (new ++ more) ∧ Ext s s' more := by
  induction is with
  | nil =>
    intro r r' s s' new hs hr h
    simp only [respItems, Except.ok.injEq, Prod.mk.injEq] at h
    obtain ⟨rfl, rfl⟩ := h
    exact ⟨[], by simpa using hr, Ext.refl hs⟩
  | cons i is ih =>
    intro r r' s s' new hs hr h
    have hp' : ∀ i ∈ is, RespItemP PlainPiece i := fun x hx => hp x (by simp [hx])
    cases i with
    | mat m =>
      simp only [respItems] at h
      have hm : Mat PlainPiece m := hp (.mat m) (by simp)
      exact ih hp' hs (hr.append (quiet_material false m hm)) h
    | render k items =>
      simp only [respItems] at h
      obtain ⟨q, hq, h⟩ := bind_ok h
      have hit : ItemsP PlainPiece items := hp (.render k items) (by simp)
      obtain ⟨more, h1, h2⟩ := renderOne_rb hs hr hit hq
      obtain ⟨more', h3, h4⟩ := ih hp' h2.good h1 h
      exact ⟨more ++ more', by rw [← List.append_assoc]; exact h3, h2.trans h4⟩

theorem indexNames_ok {s : ItemSt} (hs : Good s) {ident : Str} : ∀ (new : List Decl) (i : Nat) names,
    (∀ (k : Nat) d, new[k]? = some d → get s.vars.responses (indexedIdent ident (k + i)) = some d.identifier) →
    indexNames s ident new.length i = .ok names → names = new.map (·.identifier) := by
  intro new
  induction new with
  | nil => intro i names _ h; simp only [List.length_nil, indexNames, Except.ok.injEq] at h; simp [← h]
  | cons d new ih =>
    intro i names hk h
    simp only [List.length_cons, indexNames] at h
    obtain ⟨a, ha, h⟩ := bind_ok h
    obtain ⟨r, hr, h⟩ := bind_ok h
    simp only [Except.ok.injEq] at h
    subst h
    have h0 := hk 0 d (by simp)
    rw [Nat.zero_add, responseName_ok hs ha] at h0
    rw [ih (i + 1) r (fun k x hx => by
      have := hk (k + 1) x (by simpa using hx)
      rw [show k + (i + 1) = k + 1 + i by omega]; exact this) hr]
    simp only [List.map_cons, List.cons.injEq, and_true]
    exact Option.some.inj h0

/-- What closing a response does. -/
structure Closed (card : Card) (ident : Str) (r : RespSt) (s s' : ItemSt) (blanks : List Decl) (out : List Elt)
    (own : Decl) : Prop where
  ext : Ext s s' [own]
  name : get s'.vars.responses ident = some own.identifier
  cardinality : own.cardinality = card.text
  base : own.baseType = r.baseType.text
  kind : own.outcome = decide (r.index ≠ 0)
  many : r.index ≠ 0 → out = r.pre ++ r.post ∧
    s'.rules = s.rules ++ [.setOutcome own.identifier (aggregate card (blanks.map (·.identifier)))]
  none : r.index = 0 → r.inter = none → out = r.pre ++ r.post
  one : r.index = 0 → ∀ i, r.inter = some i → ∃ pre prompt, out = pre ++ [i.elt own.identifier prompt] ++ r.post ∧
    ((pre = r.pre ∧ prompt = []) ∨ (pre = [] ∧ prompt = [.prompt r.pre]))
  fresh : get s.vars.variables ident = Option.none → r.index = 0 → own.identifier = ident
  default : r.index = 0 → own.default = r.default.bind fun x => if x.val = 0 then Option.none else some { value := x.text }

theorem closeResponse_closed {kind : RKind} {card : Card} {ident : Str} {r : RespSt} {s s' : ItemSt}
    {blanks : List Decl} {out : List Elt} (hs : Good s) (hr : RB kind card ident s r blanks)
    (h : closeResponse card ident r s = .ok (out, s')) : ∃ own, Closed card ident r s s' blanks out own := by
  unfold closeResponse at h
  split at h
  · rename_i hi
    obtain ⟨s1, h1, h⟩ := bind_ok h
    obtain ⟨o, ho, h⟩ := bind_ok h
    obtain ⟨names, hn, h⟩ := bind_ok h
    simp only [Except.ok.injEq, Prod.mk.injEq] at h
    obtain ⟨own, o1, o2, o3, o4, o5, o6⟩ := declareFake_ok hs h1
    have e1 := responseName_ok o1.good ho
    rw [o5] at e1
    have e1 := Option.some.inj e1
    rw [← hr.len] at hn
    have e2 := indexNames_ok o1.good blanks 1 names (fun k d hk => o1.kept _ _ (hr.index k d hk)) hn
    obtain ⟨rfl, rfl⟩ := h
    refine ⟨own, ⟨⟨o1.decls, o1.kept, ⟨_, congrArg (· ++ _) o6⟩, ⟨o1.good.inv, o1.good.known, o1.good.nodup⟩⟩, o5, o3, o4,
      by simp [o2, hi], ?_, fun h => absurd h hi, fun h => absurd h hi, fun _ h => absurd h hi, fun h => absurd h hi⟩⟩
    intro _
    exact ⟨rfl, by rw [o6, e2, e1]⟩
  · rename_i hi
    have hi : r.index = 0 := by simpa using hi
    obtain ⟨s1, h1, h⟩ := bind_ok h
    obtain ⟨own, o1, o2, o3, o4, o5, o6, o7, o8, o9⟩ := declare_ok hs h1
    split at h
    · rename_i i hri
      obtain ⟨b, hb, h⟩ := bind_ok h
      simp only [Except.ok.injEq, Prod.mk.injEq] at h
      obtain ⟨b1, b2, b3, b4⟩ := bind_bound o1.good hb
      rw [o5] at b1
      have b1 := (Option.some.inj b1).symm
      obtain ⟨rfl, rfl⟩ := h
      refine ⟨own, ⟨by simpa using o1.trans b2, by rw [b3]; exact o5, o3, o4, by simp [o2, hi],
        fun h => absurd hi h, (by intro _ hn; rw [hri] at hn; cases hn), ?_, fun h _ => o7 h, fun _ => o9⟩⟩
      intro _ j hj
      rw [hri] at hj
      have hj := Option.some.inj hj
      subst hj
      refine ⟨_, _, by rw [b1], ?_⟩
      by_cases hp : isPrompt r.inter r.pre = true
      · right; simp [hp]
      · left; simp [hp]
    · rename_i hri
      simp only [Except.ok.injEq, Prod.mk.injEq] at h
      obtain ⟨rfl, rfl⟩ := h
      exact ⟨own, ⟨o1, o5, o3, o4, by simp [o2, hi], fun h => absurd hi h, fun _ _ => rfl,
        (by intro _ i h; rw [hri] at h; cases h), fun h _ => o7 h, fun _ => o9⟩⟩

/-- What a whole response does. -/
structure Asked (q : Response) (s s' : ItemSt) (out : List Elt) (new : List Decl) : Prop where
  ext : Ext s s' new
  std : ∀ e ∈ out, Std e
  ids : ((interactionsAll out).map responseOf).Sublist ((new.filter (!·.outcome)).map (·.identifier))
  fits : q.kind ≠ .num none → ∀ e ∈ interactionsAll out, ∃ d ∈ new, d.outcome = false ∧ d.identifier = responseOf e ∧
    Suits e d.cardinality d.baseType

theorem base_init (kind : RKind) : BaseOk kind kind.base := by
  cases kind with
  | num n =>
    cases n with
    | none => exact .inl rfl
    | some v => simp only [RKind.base, BaseOk]; split <;> simp
  | str => exact .inl rfl
  | _ => rfl

theorem rb_init (kind : RKind) (card : Card) (ident : Str) (s : ItemSt) :
    RB kind card ident s { baseType := kind.base } [] :=
  ⟨by simp, by simp [interactionsAll], rfl, by simp, by simp [interactionsAll], fun _ => rfl, base_init kind, by simp,
    by simp⟩

theorem interactions_prompt (pre : List Elt) : interactionsAll [Elt.prompt pre] = [] := by
  simp [interactionsAll, interactions]

theorem response_asked {ff : Bool} {level : Nat} {q : Response} {s s' : ItemSt} {out : List Elt} (hs : Good s)
    (hp : ∀ i ∈ q.items, RespItemP PlainPiece i) (h : response ff level q s = .ok (out, s')) :
    ∃ new, Asked q s s' out new := by
  unfold response at h
  obtain ⟨r, hr, h⟩ := bind_ok h
  obtain ⟨blanks, h1, h2⟩ := respItems_rb (s' := r.2) (r' := r.1) q.items hp hs (rb_init _ _ _ s) hr
  simp only [List.nil_append] at h1
  obtain ⟨own, c⟩ := closeResponse_closed h2.good h1 h
  have hb : (blanks.filter (!·.outcome)) = blanks := by
    rw [List.filter_eq_self]; intro d hd; simp [(h1.resp d hd).1]
  have hent : ∀ e ∈ interactionsAll (r.1.pre ++ r.1.post), ∃ d ∈ blanks ++ [own], d.outcome = false ∧
      d.identifier = responseOf e ∧ Suits e d.cardinality d.baseType := by
    intro e he
    have hm : responseOf e ∈ blanks.map (·.identifier) := by
      rw [← h1.ids]; exact List.mem_map_of_mem he
    obtain ⟨d, hd, e1⟩ := List.mem_map.1 hm
    obtain ⟨n, cc, a, rfl⟩ := h1.entries e he
    obtain ⟨d1, d2, d3⟩ := h1.resp d hd
    exact ⟨d, List.mem_append_left _ hd, d1, e1, d2, d3⟩
  by_cases hi : r.1.index = 0
  · have hbl : blanks = [] := by
      have := h1.len; rw [hi] at this; exact List.length_eq_zero_iff.1 this
    have hno : interactionsAll (r.1.pre ++ r.1.post) = [] := by
      have := h1.ids; rw [hbl] at this; simpa using this
    have hk : own.outcome = false := by rw [c.kind]; simp [hi]
    cases hri : r.1.inter with
    | none =>
      have ho := c.none hi hri
      refine ⟨blanks ++ [own], ⟨h2.trans c.ext, ?_, ?_, ?_⟩⟩
      · rw [ho]; exact h1.std
      · rw [ho, hno]; simp
      · rw [ho]; exact fun _ => hent
    | some i =>
      obtain ⟨pre, prompt, ho, hpp⟩ := c.one hi i hri
      rw [interactionsAll_append, List.append_eq_nil_iff] at hno
      have hint : interactionsAll out = [i.elt own.identifier prompt] := by
        rw [ho]
        simp only [interactionsAll_append, hno.2, List.append_nil]
        rcases hpp with ⟨rfl, rfl⟩ | ⟨rfl, rfl⟩
        · simp [hno.1, interactionsAll, interactions_elt]
        · simp [interactionsAll, interactions_elt]
      refine ⟨blanks ++ [own], ⟨h2.trans c.ext, ?_, ?_, ?_⟩⟩
      · rw [ho]
        intro e he
        rcases List.mem_append.1 he with he | he
        · rcases List.mem_append.1 he with he1 | he
          · rcases hpp with ⟨e1, _⟩ | ⟨e1, _⟩ <;> rw [e1] at he1
            · exact h1.std e (List.mem_append_left _ he1)
            · cases he1
          · simp only [List.mem_singleton] at he; subst he; exact std_elt _ _ _
        · exact h1.std e (List.mem_append_right _ he)
      · rw [hint, hbl]
        simp [hk, responseOf_elt]
      · rw [hint]
        intro hkn e he
        simp only [List.mem_singleton] at he
        subst he
        refine ⟨own, by simp, hk, by rw [responseOf_elt], ?_⟩
        rw [c.cardinality, c.base]
        exact fits_elt hkn h1.base (h1.fits i hri) _ _
  · obtain ⟨ho, _⟩ := c.many hi
    refine ⟨blanks ++ [own], ⟨h2.trans c.ext, ?_, ?_, ?_⟩⟩
    · rw [ho]; exact h1.std
    · rw [ho, h1.ids, List.filter_append, hb]
      simp
    · rw [ho]; exact fun _ => hent

/-! ## Flows -/

/-- What a part of a presentation does. -/
structure Laid (qs : List Response) (s s' : ItemSt) (out : List Elt) (new : List Decl) : Prop where
  ext : Ext s s' new
  std : ∀ e ∈ out, Std e
  ids : ((interactionsAll out).map responseOf).Sublist ((new.filter (!·.outcome)).map (·.identifier))
  fits : (∀ q ∈ qs, q.kind ≠ .num none) → ∀ e ∈ interactionsAll out, ∃ d ∈ new, d.outcome = false ∧
    d.identifier = responseOf e ∧ Suits e d.cardinality d.baseType

theorem Laid.nil {s : ItemSt} (hs : Good s) : Laid [] s s [] [] :=
  ⟨Ext.refl hs, by simp, by simp [interactionsAll], by simp [interactionsAll]⟩

theorem Laid.quiet {s : ItemSt} (hs : Good s) {out : List Elt} (h : ∀ e ∈ out, Quiet e) : Laid [] s s out [] :=
  ⟨Ext.refl hs, fun e he => (h e he).1, by simp [interactions_quiet h], by simp [interactions_quiet h]⟩

theorem Laid.append {qs ps : List Response} {s t u : ItemSt} {a b : List Elt} {n m : List Decl} (h : Laid qs s t a n)
    (k : Laid ps t u b m) : Laid (qs ++ ps) s u (a ++ b) (n ++ m) := by
  refine ⟨h.ext.trans k.ext, ?_, ?_, ?_⟩
  · intro e he
    rcases List.mem_append.1 he with he | he
    · exact h.std e he
    · exact k.std e he
  · rw [interactionsAll_append, List.map_append, List.filter_append, List.map_append]
    exact h.ids.append k.ids
  · intro hq e he
    rw [interactionsAll_append] at he
    rcases List.mem_append.1 he with he | he
    · obtain ⟨d, hd, h'⟩ := h.fits (fun q hx => hq q (List.mem_append_left _ hx)) e he
      exact ⟨d, List.mem_append_left _ hd, h'⟩
    · obtain ⟨d, hd, h'⟩ := k.fits (fun q hx => hq q (List.mem_append_right _ hx)) e he
      exact ⟨d, List.mem_append_right _ hd, h'⟩

theorem Laid.close {qs : List Response} {s t : ItemSt} {a : List Elt} {n : List Decl} (h : Laid qs s t a n)
    (cls : Option Str) (level : Nat) : Laid qs s t (closeFlow cls level a) n :=
  ⟨h.ext, closeFlow_std cls level a h.std, by rw [interactionsAll_closeFlow]; exact h.ids,
    by rw [interactionsAll_closeFlow]; exact h.fits⟩

theorem laid_response {ff : Bool} {level : Nat} {q : Response} {s s' : ItemSt} {out : List Elt} (hs : Good s)
    (hp : ∀ i ∈ q.items, RespItemP PlainPiece i) (h : response ff level q s = .ok (out, s')) :
    ∃ new, Laid [q] s s' out new := by
  obtain ⟨new, a⟩ := response_asked hs hp h
  exact ⟨new, ⟨a.ext, a.std, a.ids, fun hq => a.fits (hq q (by simp))⟩⟩

mutual
theorem laid_flowItem (ff : Bool) : ∀ (level : Nat) (k : FlowItem) {s s' : ItemSt} {out : List Elt}, Good s →
    FlowP PlainPiece k → flowItem ff level k s = .ok (out, s') → ∃ new, Laid (responsesOf k) s s' out new
  | level, .flow cls kids, s, s', out, hs, hp, h => by
    simp only [flowItem] at h
    obtain ⟨r, hr, h⟩ := bind_ok h
    simp only [Except.ok.injEq, Prod.mk.injEq] at h
    obtain ⟨rfl, rfl⟩ := h
    obtain ⟨new, hl⟩ := laid_flowItems ff (level + 1) kids hs hp hr
    exact ⟨new, hl.close _ _⟩
  | level, .mat m, s, s', out, hs, hp, h => by
    simp only [flowItem, Except.ok.injEq, Prod.mk.injEq] at h
    obtain ⟨rfl, rfl⟩ := h
    exact ⟨[], Laid.quiet hs (quiet_material false m hp)⟩
  | level, .resp q, s, s', out, hs, hp, h => by
    simp only [flowItem] at h
    exact laid_response hs hp h
theorem laid_flowItems (ff : Bool) : ∀ (level : Nat) (ks : List FlowItem) {s s' : ItemSt} {out : List Elt}, Good s →
    FlowsP PlainPiece ks → flowItems ff level ks s = .ok (out, s') → ∃ new, Laid (responsesIn ks) s s' out new
  | level, [], s, s', out, hs, hp, h => by
    simp only [flowItems, Except.ok.injEq, Prod.mk.injEq] at h
    obtain ⟨rfl, rfl⟩ := h
    exact ⟨[], Laid.nil hs⟩
  | level, k :: ks, s, s', out, hs, hp, h => by
    simp only [flowItems] at h
    obtain ⟨a, ha, h⟩ := bind_ok h
    obtain ⟨b, hb, h⟩ := bind_ok h
    simp only [Except.ok.injEq, Prod.mk.injEq] at h
    obtain ⟨rfl, rfl⟩ := h
    obtain ⟨n, hn⟩ := laid_flowItem ff level k hs hp.1 ha
    obtain ⟨m, hm⟩ := laid_flowItems ff level ks hn.ext.good hp.2 hb
    exact ⟨n ++ m, hn.append hm⟩
end

theorem laid_topItem {ff : Bool} {k : FlowItem} {s s' : ItemSt} {out : List Elt} (hs : Good s)
    (hp : FlowP PlainPiece k) (h : topItem ff k s = .ok (out, s')) :
    (∃ new, Laid (responsesOf k) s s' out new) ∧ ∀ e ∈ out, isBlock e = true := by
  unfold topItem at h
  cases k with
  | flow cls kids =>
    simp only at h
    obtain ⟨r, hr, h⟩ := bind_ok h
    simp only [Except.ok.injEq, Prod.mk.injEq] at h
    obtain ⟨rfl, rfl⟩ := h
    obtain ⟨new, hl⟩ := laid_flowItems ff 0 kids hs hp hr
    exact ⟨⟨new, hl.close _ _⟩, closeFlow_block _ _ _ hl.std⟩
  | mat m =>
    simp only [Except.ok.injEq, Prod.mk.injEq] at h
    obtain ⟨rfl, rfl⟩ := h
    have hl := Laid.quiet hs (quiet_material false m hp)
    exact ⟨⟨[], hl.close _ _⟩, closeFlow_block _ _ _ hl.std⟩
  | resp q =>
    simp only at h
    obtain ⟨r, hr, h⟩ := bind_ok h
    simp only [Except.ok.injEq, Prod.mk.injEq] at h
    obtain ⟨rfl, rfl⟩ := h
    obtain ⟨new, hl⟩ := laid_response hs hp hr
    exact ⟨⟨new, hl.close _ _⟩, closeFlow_block _ _ _ hl.std⟩

theorem laid_presentation {ff : Bool} : ∀ (ks : List FlowItem) {s s' : ItemSt} {out : List Elt}, Good s →
    FlowsP PlainPiece ks → presentation ff ks s = .ok (out, s') → ∃ new, Laid (responsesIn ks) s s' out new
  | [], s, s', out, hs, hp, h => by
    simp only [presentation, Except.ok.injEq, Prod.mk.injEq] at h
    obtain ⟨rfl, rfl⟩ := h
    exact ⟨[], Laid.nil hs⟩
  | k :: ks, s, s', out, hs, hp, h => by
    simp only [presentation] at h
    obtain ⟨a, ha, h⟩ := bind_ok h
    obtain ⟨b, hb, h⟩ := bind_ok h
    simp only [Except.ok.injEq, Prod.mk.injEq] at h
    obtain ⟨rfl, rfl⟩ := h
    obtain ⟨⟨n, hn⟩, hbl⟩ := laid_topItem hs hp.1 ha
    obtain ⟨m, hm⟩ := laid_presentation ks hn.ext.good hp.2 hb
    have hf : a.1.filter isBlock = a.1 := by rw [List.filter_eq_self]; exact hbl
    rw [hf]
    exact ⟨n ++ m, hn.append hm⟩

/-! ## Each response of a presentation -/

/-- A response was read on the way from `s` to `s'`, and what it asks is asked by `out`. -/
def Ran (ff : Bool) (q : Response) (s s' : ItemSt) (out : List Elt) : Prop :=
  ∃ level s1 s2 o pre post new, Good s1 ∧ response ff level q s1 = .ok (o, s2) ∧ Ext s2 s' new ∧
    interactionsAll out = pre ++ interactionsAll o ++ post ∧ (∃ old, Ext s s1 old)

theorem Ran.close {ff : Bool} {q : Response} {s s' : ItemSt} {out : List Elt} (h : Ran ff q s s' out) (cls : Option Str)
    (level : Nat) : Ran ff q s s' (closeFlow cls level out) := by
  obtain ⟨l, s1, s2, o, pre, post, new, h1, h2, h3, h4, h5⟩ := h
  exact ⟨l, s1, s2, o, pre, post, new, h1, h2, h3, by rw [interactionsAll_closeFlow]; exact h4, h5⟩

theorem Ran.left {ff : Bool} {q : Response} {s t u : ItemSt} {a b : List Elt} {n : List Decl} (h : Ran ff q s t a)
    (k : Ext t u n) : Ran ff q s u (a ++ b) := by
  obtain ⟨l, s1, s2, o, pre, post, new, h1, h2, h3, h4, h5⟩ := h
  exact ⟨l, s1, s2, o, pre, post ++ interactionsAll b, new ++ n, h1, h2, h3.trans k,
    by rw [interactionsAll_append, h4]; simp, h5⟩

theorem Ran.right {ff : Bool} {q : Response} {s t u : ItemSt} {a b : List Elt} {n : List Decl} (h : Ran ff q t u b)
    (k : Ext s t n) : Ran ff q s u (a ++ b) := by
  obtain ⟨l, s1, s2, o, pre, post, new, h1, h2, h3, h4, old, h5⟩ := h
  exact ⟨l, s1, s2, o, interactionsAll a ++ pre, post, new, h1, h2, h3,
    by rw [interactionsAll_append, h4]; simp, n ++ old, k.trans h5⟩

theorem ran_response {ff : Bool} {level : Nat} {q : Response} {s s' : ItemSt} {out : List Elt} (hs : Good s)
    (hp : ∀ i ∈ q.items, RespItemP PlainPiece i) (h : response ff level q s = .ok (out, s')) : Ran ff q s s' out := by
  obtain ⟨new, a⟩ := response_asked hs hp h
  exact ⟨level, s, s', out, [], [], [], hs, h, Ext.refl a.ext.good, by simp, [], Ext.refl hs⟩

mutual
theorem ran_flowItem (ff : Bool) : ∀ (level : Nat) (k : FlowItem) {s s' : ItemSt} {out : List Elt}, Good s →
    FlowP PlainPiece k → flowItem ff level k s = .ok (out, s') → ∀ q ∈ responsesOf k, Ran ff q s s' out
  | level, .flow cls kids, s, s', out, hs, hp, h, q, hq => by
    simp only [flowItem] at h
    obtain ⟨r, hr, h⟩ := bind_ok h
    simp only [Except.ok.injEq, Prod.mk.injEq] at h
    obtain ⟨rfl, rfl⟩ := h
    exact (ran_flowItems ff (level + 1) kids hs hp hr q hq).close _ _
  | level, .mat m, s, s', out, hs, hp, h, q, hq => by cases hq
  | level, .resp q', s, s', out, hs, hp, h, q, hq => by
    simp only [responsesOf, List.mem_singleton] at hq
    subst hq
    simp only [flowItem] at h
    exact ran_response hs hp h
theorem ran_flowItems (ff : Bool) : ∀ (level : Nat) (ks : List FlowItem) {s s' : ItemSt} {out : List Elt}, Good s →
    FlowsP PlainPiece ks → flowItems ff level ks s = .ok (out, s') → ∀ q ∈ responsesIn ks, Ran ff q s s' out
  | level, [], s, s', out, hs, hp, h, q, hq => by cases hq
  | level, k :: ks, s, s', out, hs, hp, h, q, hq => by
    simp only [flowItems] at h
    obtain ⟨a, ha, h⟩ := bind_ok h
    obtain ⟨b, hb, h⟩ := bind_ok h
    simp only [Except.ok.injEq, Prod.mk.injEq] at h
    obtain ⟨rfl, rfl⟩ := h
    obtain ⟨n, hn⟩ := laid_flowItem ff level k hs hp.1 ha
    obtain ⟨m, hm⟩ := laid_flowItems ff level ks hn.ext.good hp.2 hb
    rcases List.mem_append.1 hq with hq | hq
    · exact (ran_flowItem ff level k hs hp.1 ha q hq).left hm.ext
    · exact (ran_flowItems ff level ks hn.ext.good hp.2 hb q hq).right hn.ext
end

theorem ran_topItem {ff : Bool} {k : FlowItem} {s s' : ItemSt} {out : List Elt} (hs : Good s)
    (hp : FlowP PlainPiece k) (h : topItem ff k s = .ok (out, s')) : ∀ q ∈ responsesOf k, Ran ff q s s' out := by
  intro q hq
  unfold topItem at h
  cases k with
  | flow cls kids =>
    simp only at h
    obtain ⟨r, hr, h⟩ := bind_ok h
    simp only [Except.ok.injEq, Prod.mk.injEq] at h
    obtain ⟨rfl, rfl⟩ := h
    exact (ran_flowItems ff 0 kids hs hp hr q hq).close _ _
  | mat m => cases hq
  | resp q' =>
    simp only [responsesOf, List.mem_singleton] at hq
    subst hq
    simp only at h
    obtain ⟨r, hr, h⟩ := bind_ok h
    simp only [Except.ok.injEq, Prod.mk.injEq] at h
    obtain ⟨rfl, rfl⟩ := h
    exact (ran_response hs hp hr).close _ _

theorem ran_presentation {ff : Bool} : ∀ (ks : List FlowItem) {s s' : ItemSt} {out : List Elt}, Good s →
    FlowsP PlainPiece ks → presentation ff ks s = .ok (out, s') → ∀ q ∈ responsesIn ks, Ran ff q s s' out
  | [], s, s', out, hs, hp, h, q, hq => by cases hq
  | k :: ks, s, s', out, hs, hp, h, q, hq => by
    simp only [presentation] at h
    obtain ⟨a, ha, h⟩ := bind_ok h
    obtain ⟨b, hb, h⟩ := bind_ok h
    simp only [Except.ok.injEq, Prod.mk.injEq] at h
    obtain ⟨rfl, rfl⟩ := h
    obtain ⟨⟨n, hn⟩, hbl⟩ := laid_topItem hs hp.1 ha
    obtain ⟨m, hm⟩ := laid_presentation ks hn.ext.good hp.2 hb
    have hf : a.1.filter isBlock = a.1 := by rw [List.filter_eq_self]; exact hbl
    rw [hf]
    rcases List.mem_append.1 hq with hq | hq
    · exact (ran_topItem hs hp.1 ha q hq).left hm.ext
    · exact (ran_presentation ks hn.ext.good hp.2 hb q hq).right hn.ext

/-! ## What the presentation shows -/

mutual
theorem seen_flowItem (ff : Bool) : ∀ (level : Nat) (k : FlowItem) {s s' : ItemSt} {out : List Elt},
    FlowP TypedPiece k → (∀ q ∈ responsesOf k, RespKept q) → flowItem ff level k s = .ok (out, s') →
    seenAll out = flowItemSeen k
  | level, .flow cls kids, s, s', out, hp, hk, h => by
    simp only [flowItem] at h
    obtain ⟨r, hr, h⟩ := bind_ok h
    simp only [Except.ok.injEq, Prod.mk.injEq] at h
    obtain ⟨rfl, rfl⟩ := h
    rw [seenAll_closeFlow]
    exact seen_flowItems ff (level + 1) kids hp hk hr
  | level, .mat m, s, s', out, hp, hk, h => by
    simp only [flowItem, Except.ok.injEq, Prod.mk.injEq] at h
    obtain ⟨rfl, rfl⟩ := h
    exact seen_material false m hp
  | level, .resp q, s, s', out, hp, hk, h => by
    simp only [flowItem] at h
    exact response_seen (hk q (by simp [responsesOf])) hp h
theorem seen_flowItems (ff : Bool) : ∀ (level : Nat) (ks : List FlowItem) {s s' : ItemSt} {out : List Elt},
    FlowsP TypedPiece ks → (∀ q ∈ responsesIn ks, RespKept q) → flowItems ff level ks s = .ok (out, s') →
    seenAll out = flowSeen ks
  | level, [], s, s', out, hp, hk, h => by
    simp only [flowItems, Except.ok.injEq, Prod.mk.injEq] at h
    obtain ⟨rfl, rfl⟩ := h
    rfl
  | level, k :: ks, s, s', out, hp, hk, h => by
    simp only [flowItems] at h
    obtain ⟨a, ha, h⟩ := bind_ok h
    obtain ⟨b, hb, h⟩ := bind_ok h
    simp only [Except.ok.injEq, Prod.mk.injEq] at h
    obtain ⟨rfl, rfl⟩ := h
    simp only [responsesIn] at hk
    rw [seenAll_append, seen_flowItem ff level k hp.1 (fun q hq => hk q (List.mem_append_left _ hq)) ha,
      seen_flowItems ff level ks hp.2 (fun q hq => hk q (List.mem_append_right _ hq)) hb]
    rfl
end

theorem seen_topItem {ff : Bool} {k : FlowItem} {s s' : ItemSt} {out : List Elt} (hp : FlowP TypedPiece k)
    (hk : ∀ q ∈ responsesOf k, RespKept q) (h : topItem ff k s = .ok (out, s')) : seenAll out = flowItemSeen k := by
  unfold topItem at h
  cases k with
  | flow cls kids =>
    simp only at h
    obtain ⟨r, hr, h⟩ := bind_ok h
    simp only [Except.ok.injEq, Prod.mk.injEq] at h
    obtain ⟨rfl, rfl⟩ := h
    rw [seenAll_closeFlow]
    exact seen_flowItems ff 0 kids hp hk hr
  | mat m =>
    simp only [Except.ok.injEq, Prod.mk.injEq] at h
    obtain ⟨rfl, rfl⟩ := h
    rw [seenAll_closeFlow]
    exact seen_material false m hp
  | resp q =>
    simp only at h
    obtain ⟨r, hr, h⟩ := bind_ok h
    simp only [Except.ok.injEq, Prod.mk.injEq] at h
    obtain ⟨rfl, rfl⟩ := h
    rw [seenAll_closeFlow]
    exact response_seen (hk q (by simp [responsesOf])) hp hr

theorem seen_presentation {ff : Bool} : ∀ (ks : List FlowItem) {s s' : ItemSt} {out : List Elt}, Good s →
    FlowsP TypedPiece ks → FlowsP PlainPiece ks → (∀ q ∈ responsesIn ks, RespKept q) →
    presentation ff ks s = .ok (out, s') → seenAll out = flowSeen ks
  | [], s, s', out, hs, hp, hpl, hk, h => by
    simp only [presentation, Except.ok.injEq, Prod.mk.injEq] at h
    obtain ⟨rfl, rfl⟩ := h
    rfl
  | k :: ks, s, s', out, hs, hp, hpl, hk, h => by
    simp only [presentation] at h
    obtain ⟨a, ha, h⟩ := bind_ok h
    obtain ⟨b, hb, h⟩ := bind_ok h
    simp only [Except.ok.injEq, Prod.mk.injEq] at h
    obtain ⟨rfl, rfl⟩ := h
    obtain ⟨⟨n, hn⟩, hbl⟩ := laid_topItem hs hpl.1 ha
    have hf : a.1.filter isBlock = a.1 := by rw [List.filter_eq_self]; exact hbl
    simp only [responsesIn] at hk
    rw [hf, seenAll_append, seen_topItem hp.1 (fun q hq => hk q (List.mem_append_left _ hq)) ha,
      seen_presentation ks hn.ext.good hp.2 hpl.2 (fun q hq => hk q (List.mem_append_right _ hq)) hb]
    rfl

end Verif.Lemmas.Pres
