import Verif.Props.PresentationMore
import Verif.Props.V1Item

/-!
# Properties of migrated presentations: text questions; the display of feedback; who sees a rubric
-/

namespace Verif.Props

open Verif Verif.Spec Verif.Pres Verif.Lemmas.Pres
open Verif.ItemXml (Elt Decl XExpr Feedback)
open Verif.Qti (State Value Atom BaseType)
open Verif.Dict (get)

set_option linter.unusedVariables false

/-! ## C103: text questions -/

theorem fibChildren_nomat (level : Nat) (items : List RItem) (hm : matsOf items = []) (cs : List FibChild)
    (h : fibChildren level items = .ok cs) : cs.length = cs.countP Made.isBlank := by
  rw [fibChildren_eq level items cs h]
  clear h
  induction items with
  | nil => rfl
  | cons i is ih =>
    cases i with
    | mat m => simp [matsOf] at hm
    | labels t =>
      have := ih (by simpa [matsOf] using hm)
      rw [List.flatMap_cons, List.length_append, List.countP_append, this]
      simp [Made.isBlank, List.countP_map, Function.comp_def]

theorem fibSingle_inter (i : Inter) (cs : List FibChild) : ∀ r : RespSt,
    (fibSingle i cs r).index = r.index ∧
    (r.inter = some i ∨ cs.countP Made.isBlank ≠ 0 → (fibSingle i cs r).inter = some i) := by
  induction cs with
  | nil => intro r; exact ⟨rfl, fun h => by rcases h with h | h; exact h; simp at h⟩
  | cons c cs ih =>
    intro r
    cases c with
    | blank n =>
      obtain ⟨h1, h2⟩ := ih { r with inter := some i }
      exact ⟨h1, fun _ => h2 (.inl rfl)⟩
    | elt e =>
      obtain ⟨h1, h2⟩ := ih (r.append e)
      have a1 : (r.append e).index = r.index := appendAll_index [e] r
      have a2 : (r.append e).inter = r.inter := appendAll_inter [e] r
      refine ⟨by simp only [fibSingle]; rw [h1, a1], fun h => ?_⟩
      simp only [fibSingle]
      refine h2 ?_
      rw [a2]
      simpa [Made.isBlank, List.countP_cons] using h

/-- A text question that is not asked in several blanks keeps the expected length, the base of a number and the look of
the field, and allows as many answers as the source: those of `maxnumber`, or one for each label. -/
theorem text_question_kept (ff : Bool) (kids : List FlowItem) (body : List Elt) (s : ItemSt)
    (h : presentation ff kids {} = .ok (body, s)) (hp : FlowsP PlainPiece kids) (q : Response)
    (hq : q ∈ responsesIn kids) (ft ro co mc pr mx : Option Str) (items : List RItem)
    (hr : rendersOf q.items = [(.fib ft ro co mc pr mx, items)])
    (hone : q.card = .single ∨ labelsOf items = [] ∨ matsOf items = [])
    (ht : ∀ m ∈ matsOf items, Mat TypedPiece m) :
    ∃ e ∈ interactionsAll body, Item.getResponse s.vars (readIdent q.ident) = .ok (some (responseOf e)) ∧
      TextKept q.kind ro co mc pr e ∧
      (labelsOf items = [] ∨ matsOf items = [] →
        (∀ n, saysNumber mx n → n ≠ 0 → maxAnswers e = some n) ∧
        (mx = none → maxAnswers e = some (if q.card = .single ∨ labelsOf items = [] then 1 else (labelsOf items).length))) := by
  obtain ⟨level, s1, s2, o, pre, post, new, g1, g2, g3, g4, _⟩ := ran_presentation kids good_init hp h q hq
  have hpq := plain_response kids hp q hq
  obtain ⟨r1, p, es, blanks, own, b1, b2, b3, b4, b5, b6, b7, b8, b9, bes⟩ := response_one g1 hpq hr g2
  simp only [renderOne] at b5
  unfold renderFib at b5
  obtain ⟨t, hty, b5⟩ := bind_ok b5
  obtain ⟨cs, hcs, b5⟩ := bind_ok b5
  obtain ⟨c1, c2⟩ := fibChildren_seen level items ht cs hcs
  have hi0 : r1.index = 0 := by simpa using b1.len.symm
  have done : ∀ i, p.1.index = 0 → p.1.inter = some i → ∃ prompt, i.elt own.identifier prompt ∈ interactionsAll body ∧
      Item.getResponse s.vars (readIdent q.ident) = .ok (some own.identifier) := by
    intro i h0 hi
    obtain ⟨prompt, hint⟩ := closed_one b7 b6 (by rw [appendAll_index]; exact h0) (by rw [appendAll_inter]; exact hi)
    refine ⟨prompt, ?_, ?_⟩
    · rw [g4, hint]; exact List.mem_append_left _ (List.mem_append_right _ (List.mem_singleton.2 rfl))
    · rw [getResponse_eq g3.good.inv, g3.kept _ _ b6.name]
  simp only at b5
  split at b5
  · rename_i hl
    have hnone : ¬ (labelsOf items = [] ∨ matsOf items = []) := by
      rintro (h1 | h1)
      · exact hl.1 (by rw [c2, h1]; rfl)
      · have := fibChildren_nomat level items h1 cs hcs
        omega
    have hc : q.card = .single := by
      rcases hone with h1 | h1
      · exact h1
      · exact absurd h1 hnone
    rw [if_pos hc] at b5
    have b5' := Except.ok.inj b5
    obtain ⟨f1, f2⟩ := fibSingle_inter (.textEntry (fibClass pr) (fibAtts t.1 (fibLength ro co mc))) cs { r1 with baseType := t.2 }
    obtain ⟨prompt, d1, d2⟩ := done _ (by rw [← b5']; exact f1.trans hi0) (by rw [← b5']; exact f2 (.inr hl.1))
    exact ⟨_, d1, d2, textKept_entry (n := own.identifier) b1.base hty, fun h => absurd h hnone⟩
  · rename_i hl
    have b5' := Except.ok.inj b5
    obtain ⟨prompt, d1, d2⟩ := done _ (by rw [← b5']; exact hi0) (by rw [← b5'])
    refine ⟨_, d1, d2, textKept_extended b1.base hty, fun _ => ⟨?_, ?_⟩⟩
    · rintro n ⟨v, rfl, hv⟩ h0
      simp [Inter.elt, maxAnswers, fibMax, readCount, readInteger, hv, h0]
    · rintro rfl
      by_cases hc : q.card = .single
      · simp [Inter.elt, maxAnswers, fibMax, readCount, hc]
      · by_cases hlab : labelsOf items = []
        · simp [Inter.elt, maxAnswers, fibMax, readCount, hc, c2, hlab]
        · have hpos : (labelsOf items).length ≠ 0 := by simpa using hlab
          have hpos' : ((labelsOf items).length : Int) ≠ 0 := by omega
          simp [Inter.elt, maxAnswers, fibMax, readCount, hc, c2, hlab]

/-- The text entries of a body: their response, look, base and length. -/
def entriesOf (es : List Elt) : List (Str × Option Str × Option Int × Option Int) :=
  es.flatMap fun e => match e with
    | .textEntry n b a => [(n, b.classid, a.base, a.expectedLength)]
    | _ => []

/-- A question for a number of at most four characters, asked in a text. -/
def pNumber : List FlowItem :=
  [.resp { kind := .num (some "Integer".toList), ident := "N".toList, items := [.mat (pTxt "How many?"),
    .render (.fib (some "Integer".toList) none none (some " 4 ".toList) (some "Box".toList) none)
      [.mat (pTxt "about"), .labels (.label { ident := "1".toList, items := [] })]] }]

theorem text_question_hypotheses : FlowsP PlainPiece pNumber ∧
    (presentation false pNumber {}).toOption.map (fun r => (entriesOf (interactionsAll r.1)).map fun x => (x.1, x.2.1)) =
      some [("N".toList, some "Box".toList)] ∧
    (presentation false pNumber {}).toOption.map (fun r => (entriesOf (interactionsAll r.1)).map fun x => x.2.2) =
      some [(some 10, some 4)] ∧
    saysNumber (some " 4 ".toList) 4 ∧ FlowsP PlainPiece pSample := by
  refine ⟨?_, by decide +kernel, by decide +kernel, ⟨_, rfl, by decide +kernel⟩, pSample_hypotheses.1⟩
  simp [pNumber, FlowsP, FlowP, RespItemP, ItemsP, Mat, PlainPiece, pTxt, matsOf, labelsOf,
    LabelTree.labels, LabelP, labelContents, MatFs]

/-! ## C104: the display of feedback -/

/-- A rule that displays feedback shows the feedback whose name is converted to the same identifier, and nothing else
that was not shown. -/
theorem feedback_displayed (st : State) (hst : GoodState st) (as : List Atom)
    (hg : st.get "FEEDBACK".toList = .ok (.multiple (some .identifier) as))
    (ho : st.isOutcome "FEEDBACK".toList = .ok true) (link ident : Str) (title : Option Str) (items : List FbItem) :
    ∃ st', Qti.runRule st (V1.displayFeedback (readLink link)) = .ok (st', false) ∧
      (FeedbackShown st' (Pres.itemFeedback ident title items) ↔
        FeedbackShown st (Pres.itemFeedback ident title items) ∨ readLink ident = readLink link) := by
  have hv : Names.isValidNCName (readLink link) = true := by
    obtain ⟨c, t, he, h1, h2⟩ := readIdentifier_good feedbackPrefix link (by decide +kernel) (by decide +kernel)
    unfold readLink
    rw [he]
    rw [he] at h2
    simp only [Names.isValidNCName, Bool.and_eq_true, List.all_eq_true, bne_iff_ne, ne_eq]
    exact ⟨⟨h1, (h2 c (by simp)).2.1⟩, fun d hd => ⟨(h2 d (by simp [hd])).1, (h2 d (by simp [hd])).2.1⟩⟩
  obtain ⟨st', as', h1, h2, h3⟩ := feedback_step hst hg ho hv
  refine ⟨st', h1, ?_⟩
  have e1 : ∀ (x : State) bs, x.get "FEEDBACK".toList = .ok (.multiple (some .identifier) bs) →
      (FeedbackShown x (Pres.itemFeedback ident title items) ↔ .str (readLink ident) ∈ bs) := by
    intro x bs hx
    constructor
    · rintro ⟨bt, cs, c1, c2⟩
      simp only [Pres.itemFeedback] at c1 c2
      rw [hx] at c1
      cases c1
      simpa [readLink] using c2
    · intro hm
      exact ⟨_, _, hx, by simpa [Pres.itemFeedback, readLink] using hm⟩
  rw [e1 st' as' h2.1, e1 st as hg, h3]
  simp

/-- Feedback is displayed exactly when the source displays it, for names that migration keeps. -/
theorem feedback_displayed_partial (st : State) (hst : GoodState st) (as : List Atom)
    (hg : st.get "FEEDBACK".toList = .ok (.multiple (some .identifier) as))
    (ho : st.isOutcome "FEEDBACK".toList = .ok true) (link ident : Str) (hl : PlainName link) (hi : PlainName ident)
    (title : Option Str) (items : List FbItem) :
    ∃ st', Qti.runRule st (V1.displayFeedback (readLink link)) = .ok (st', false) ∧
      (FeedbackShown st' (Pres.itemFeedback ident title items) ↔
        FeedbackShown st (Pres.itemFeedback ident title items) ∨ ident = link) := by
  obtain ⟨st', h1, h2⟩ := feedback_displayed st hst as hg ho link ident title items
  refine ⟨st', h1, ?_⟩
  rw [h2]
  simp only [readLink, plain_kept hl, plain_kept hi]

/-- A state in which the feedback `good` is shown. -/
def fbState : State :=
  { vars := [("FEEDBACK".toList, .multiple (some .identifier) [.str "good".toList])]
    decls := [("FEEDBACK".toList, { kind := .outcome, card := .multiple, bt := some .identifier })] }

theorem feedback_displayed_hypotheses : GoodState fbState ∧
    fbState.get "FEEDBACK".toList = .ok (.multiple (some .identifier) [.str "good".toList]) ∧
    fbState.isOutcome "FEEDBACK".toList = .ok true ∧ PlainName "hint1".toList ∧
    FeedbackShown fbState (Pres.itemFeedback "good".toList none []) ∧
    ¬ FeedbackShown fbState (Pres.itemFeedback "hint1".toList none []) := by
  have hgood : GoodState fbState := by
    intro p hp
    simp only [fbState, List.mem_singleton] at hp
    subst hp
    exact .multiple (by
      intro a ha
      rw [List.mem_singleton.1 ha]
      exact ⟨_, rfl, .identifier _ (by decide +kernel), trivial⟩)
  refine ⟨hgood, by decide +kernel, by decide +kernel, ?_, ⟨_, _, rfl, by decide +kernel⟩, ?_⟩
  · refine ⟨(ncname_test_partial _).1 (by decide +kernel), by decide +kernel⟩
  · rintro ⟨bt, as, h1, h2⟩
    rw [show fbState.get (Pres.itemFeedback "hint1".toList none []).outcomeIdentifier =
      .ok (.multiple (some .identifier) [.str "good".toList]) by decide +kernel] at h1
    cases h1
    revert h2
    decide +kernel

/-- Feedback for another name is displayed as well when the names differ only in characters that are replaced. -/
theorem feedback_displayed_refuted :
    "a.b".toList ≠ "a_b".toList ∧ ∃ st', Qti.runRule fbState (V1.displayFeedback (readLink "a.b".toList)) = .ok (st', false) ∧
      ¬ FeedbackShown fbState (Pres.itemFeedback "a_b".toList none []) ∧
      FeedbackShown st' (Pres.itemFeedback "a_b".toList none []) := by
  obtain ⟨h1, h2, h3, _⟩ := feedback_displayed_hypotheses
  obtain ⟨st', e1, e2⟩ := feedback_displayed fbState h1 _ h2 h3 "a.b".toList "a_b".toList none []
  refine ⟨by decide, st', e1, ?_, e2.2 (.inr (by decide +kernel))⟩
  rintro ⟨bt, as, h1, h2⟩
  rw [show fbState.get (Pres.itemFeedback "a_b".toList none []).outcomeIdentifier =
    .ok (.multiple (some .identifier) [.str "good".toList]) by decide +kernel] at h1
  cases h1
  revert h2
  decide +kernel

/-! ## C101: who sees a rubric -/

/-- A rubric is seen by everybody if the source says so or says nothing, otherwise by the role of the source. -/
theorem rubric_seen_by (kids : List MatFlow) :
    seenBy (rubric none kids) = targetViews ∧
    (∀ v, Py.lower (Names.strip v) = "all".toList → seenBy (rubric (some v) kids) = targetViews) ∧
    ∀ v p, p ∈ roleKept → Py.lower (Names.strip v) = p.1 →
      seenBy (rubric (some v) kids) = [p.2] ∧
      ∃ e, objectives (some v) kids = .ok (.inl e) ∧ seenBy e = [p.2] := by
  refine ⟨by simp [rubric, readViews, seenBy], ?_, ?_⟩
  · intro v hv
    have : Names.readView v = "all".toList := by
      unfold Names.readView
      simp only [hv]
      rfl
    simp [-String.reduceToList, rubric, readViews, this, seenBy]
  · intro v p hp hv
    have hp2 : p.2 ≠ "all".toList := by
      clear hv; revert p; decide +kernel
    have : Names.readView v = p.2 := by
      unfold Names.readView
      simp only [hv]
      clear hv hp2
      revert p; decide +kernel
    simp [-String.reduceToList, rubric, objectives, readViews, this, seenBy, hp2]

/-- A solution or hint is marked as such, with its style. -/
theorem feedback_styles (ident : Str) (title : Option Str) (items : List FbItem) :
    (Pres.itemFeedback ident title items).title = title ∧
    (∀ style kids, .solution style kids ∈ items → ∃ b es, .div b es ∈ (Pres.itemFeedback ident title items).kids ∧
      (MatFs TypedPiece kids → seenAll es = matFlowsSeen kids) ∧
      b.classid = some (match style.map fun v => Py.lower (Names.strip v) with
        | none => "solution".toList
        | some s => if s = "complete".toList then "solution".toList else "solution.".toList ++ s)) ∧
    (∀ style kids, .hint style kids ∈ items → ∃ b es, .div b es ∈ (Pres.itemFeedback ident title items).kids ∧
      b.classid = some (match style.map fun v => Py.lower (Names.strip v) with
        | none => "hint".toList
        | some s => if s = "complete".toList then "hint".toList else "hint.".toList ++ s)) := by
  have hs : ∀ (n : String) (style : Option Str), styleClass n style =
      match style.map fun v => Py.lower (Names.strip v) with
        | none => n.toList
        | some s => if s = "complete".toList then n.toList else (n.toList ++ ['.']) ++ s := by
    intro n style
    cases style with
    | none => rfl
    | some v =>
      simp only [styleClass, Option.map_some]
      by_cases h : Py.lower (Names.strip v) = "complete".toList
      · rw [if_pos h, if_neg (Classical.not_not.2 h)]
      · rw [if_neg h, if_pos h]
  refine ⟨rfl, ?_, ?_⟩
  · intro style kids hm
    refine ⟨_, _, List.mem_flatMap.2 ⟨_, hm, List.mem_singleton.2 rfl⟩, fun h => seen_wrapped_all false 0 kids h, ?_⟩
    exact congrArg some (hs "solution" style)
  · intro style kids hm
    refine ⟨_, _, List.mem_flatMap.2 ⟨_, hm, List.mem_singleton.2 rfl⟩, ?_⟩
    exact congrArg some (hs "hint" style)

end Verif.Props
