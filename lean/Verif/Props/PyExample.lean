import Verif.Props.PyDeclare

/-!
# An item that meets the hypotheses of the theorems about the library's migration
-/

namespace Verif.Props

open Verif Verif.Qti Verif.Spec Verif.V1 Verif.Spec.PyMig

set_option linter.unusedVariables false

/-- The responses of the item. -/
def pyResponses : PyMig.Decls :=
  [(['T'], ⟨.response, .single, .string, none, none, none, none, []⟩),
   (['M'], ⟨.response, .multiple, .identifier, none, none, none, none, []⟩),
   (['O'], ⟨.response, .ordered, .float, none, none, none, none, []⟩),
   (['S'], ⟨.response, .single, .identifier, none, none, none, none, []⟩)]

/-- With its outcome. -/
def pyItemDecls : PyMig.Decls :=
  (['N'], ⟨.outcome, .single, .integer, none, none, none, none, []⟩) :: pyResponses

theorem ident_letter (c : Char) (h1 : c.toNat < 91) (h2 : 65 ≤ c.toNat) : PyMig.ident [c] = [c] :=
  plain_ident (plain_letter c h1 h2)

theorem py_answerEnv (r : Str) (a : Answer) (h : sampleAnswers r = some a) :
    responses pyItemDecls r = answerEnv r := by
  unfold sampleAnswers at h
  by_cases h1 : r = ['T']
  · subst h1; unfold responses; rw [ident_letter 'T' (by decide) (by decide)]; rfl
  · by_cases h2 : r = ['M']
    · subst h2; unfold responses; rw [ident_letter 'M' (by decide) (by decide)]; rfl
    · by_cases h3 : r = ['O']
      · subst h3; unfold responses; rw [ident_letter 'O' (by decide) (by decide)]; rfl
      · by_cases h4 : r = ['S']
        · subst h4; unfold responses; rw [ident_letter 'S' (by decide) (by decide)]; rfl
        · simp [h1, h2, h3, h4] at h

theorem py_item_answers : AnswersKept (responses pyItemDecls) sampleAnswers itemSession := by
  obtain ⟨⟨h1, h2⟩, h3⟩ := item_answers
  refine ⟨⟨h1, ?_⟩, ?_⟩
  · intro r a h
    rw [py_answerEnv r a h]
    exact h2 r a h
  · intro r a id c b h he
    rw [py_answerEnv r a h] at he
    exact h3 r a id c b h he

/-- Conditions that are kept, with white space around the operand: `B` is chosen and the text is not `zz`. -/
example : ∃ e v t, PyMig.conditionVar pyItemDecls
      [.test (.varequal true) ['M'] none " B ".toList, .not [.test (.varequal true) ['T'] none "zz".toList]] = .ok e ∧
    eval itemSession e = .ok v ∧ IsTruth v t := by
  have d1 : Denotes .identifier ['B'] (.str ['B']) := .identifier (plain_letter 'B' (by decide) (by decide))
  have d2 : Denotes .string "zz".toList (.str "zz".toList) := .string (by decide)
  obtain ⟨e, v, t, h1, h2, h3, _⟩ := py_condition_meaning_partial py_item_answers.1
    [.test (.varequal true) ['M'] none " B ".toList, .not [.test (.varequal true) ['T'] none "zz".toList]] (by simp)
    ⟨⟨_, _, rfl, by
        have : Names.strip " B ".toList = ['B'] := by decide +kernel
        rw [this]
        exact d1, Or.inr ⟨Or.inl rfl, by simp⟩⟩,
      ⟨rfl, ⟨_, _, rfl, by
        have : Names.strip "zz".toList = "zz".toList := by decide +kernel
        rw [this]
        exact d2, Or.inl rfl⟩, trivial⟩, trivial⟩
  exact ⟨e, v, t, h1, h2, h3⟩

/-- The conditions of the item are converted, so that order and stops are kept. -/
example : ∃ cs ds', Converted pyItemDecls itemConditions cs ds' := by
  cases h : PyMig.respConditions ⟨pyItemDecls, [], true, .container 0⟩ itemConditions with
  | ok st =>
    obtain ⟨cs, hc⟩ := (py_conditions_in_order pyItemDecls itemConditions).2 st h
    exact ⟨cs, _, hc⟩
  | error e =>
    have : (PyMig.respConditions ⟨pyItemDecls, [], true, .container 0⟩ itemConditions).toBool = true := by decide +kernel
    rw [h] at this
    cases this

theorem py_item_declared : Declared pyItemDecls [['N']] := by
  intro n hn
  simp at hn
  subst hn
  exact ⟨_, by rw [ident_letter 'N' (by decide) (by decide)]; rfl, rfl⟩

theorem py_item_outcomes : outcomes pyItemDecls ['N'] = (['N'], .integer) := by
  unfold outcomes
  rw [ident_letter 'N' (by decide) (by decide)]
  rfl

theorem item_trimmed : itemConditions.map trimmedRule = itemConditions := by
  have e1 : Names.strip ['B'] = ['B'] := by decide +kernel
  have e2 : Names.strip "zz".toList = "zz".toList := by decide +kernel
  have e3 : Names.strip "2".toList = "2".toList := by decide +kernel
  have e4 : Names.strip "5".toList = "5".toList := by decide +kernel
  have e5 : Names.strip "100".toList = "100".toList := by decide +kernel
  simp only [itemConditions, List.map_cons, List.map_nil, trimmedRule, trimmedAll, trimmed, trimmedEffect, e1, e2, e3, e4, e5]

/-- The hypotheses are met: an outcome `N` is declared by the item itself, and ends with seven points; feedback `F` is
shown. -/
example : ∃ ds' rules st', PyMig.resProcessing pyResponses [] [{ varName := ['N'], varType := .integer }] [] itemConditions =
      .ok (ds', rules) ∧ run itemSession rules = .ok st' ∧
    st'.get ['N'] = .ok (.single (some .integer) (some (.int 7))) := by
  have d1 : Denotes .identifier ['B'] (.str ['B']) := .identifier (plain_letter 'B' (by decide) (by decide))
  have d2 : Denotes .string "zz".toList (.str "zz".toList) := .string (by decide)
  have t2 : IntegerText "2".toList 2 := (integer_read _ _).mp (by decide +kernel)
  have t5 : IntegerText "5".toList 5 := (integer_read _ _).mp (by decide +kernel)
  have s1 : Names.strip ['B'] = ['B'] := by decide +kernel
  have s2 : Names.strip "zz".toList = "zz".toList := by decide +kernel
  have sat1 : Sat sampleAnswers (.test (.varequal false) ['M'] none ['B']) :=
    ⟨_, .str ['B'], _, rfl, d1, by simp [selected], by simp [Passes]⟩
  have sat2 : ¬ Sat sampleAnswers (.test (.varequal true) ['T'] none "zz".toList) := by
    rintro ⟨a, x, y, h1, h2, h3, h4⟩
    cases h1
    have := denotes_unique d2 h2
    subst this
    simp [selected] at h3
    subst h3
    simp [Passes] at h4
  have hN : ∀ n ∈ [['N']], n = ['N'] := by simp
  obtain ⟨ds', rules, st', h1, _, h2, h3⟩ := py_item_scores_partial pyResponses pyItemDecls pyItemDecls
    [{ varName := ['N'], varType := .integer }] [] [['N']] itemConditions sampleAnswers itemSession
    ⟨fun _ => 0, fun _ => False⟩ ⟨fun m => if m = ['N'] then 7 else 0, fun m => m = ['F'] ∨ False⟩
    (by decide +kernel) (by rfl) py_item_answers py_item_declared
    ⟨by
      intro a ha b hb _
      rw [hN a ha, hN b hb], fun _ n hn => by rw [hN n hn, py_item_outcomes]; decide⟩
    (by
      intro c hc
      simp only [itemConditions, List.mem_cons, List.not_mem_nil, or_false] at hc
      rcases hc with rfl | rfl | rfl
      · refine ⟨by simp, ⟨⟨_, _, rfl, by rw [s1]; exact d1, Or.inr ⟨Or.inl rfl, fun h => by cases h⟩⟩, trivial⟩,
          ⟨trivial, trivial⟩, ⟨by simp +contextual, fun _ _ => itemFeedback⟩,
          ⟨[.setvar ['N'] .add "2".toList], [.displayfeedback ['F']], rfl, by simp, by simp⟩⟩
      · exact ⟨by simp, ⟨⟨_, _, rfl, by rw [s2]; exact d2, Or.inl rfl⟩, trivial⟩, ⟨trivial, trivial⟩,
          ⟨by simp +contextual, fun _ _ => itemFeedback⟩, ⟨[.setvar ['N'] .set "100".toList], [], rfl, by simp, by simp⟩⟩
      · exact ⟨by simp, ⟨trivial, trivial⟩, ⟨trivial, trivial⟩, ⟨by simp +contextual, fun _ _ => itemFeedback⟩,
          ⟨[.setvar ['N'] .add "5".toList], [], rfl, by simp, by simp⟩⟩)
    ⟨by
      intro n hn
      rw [hN n hn, py_item_outcomes]
      exact ⟨by decide, _, by rfl, .integer 0, rfl⟩, fun _ => ⟨by decide, [], by decide, by simp⟩⟩
    (by
      rw [item_trimmed]
      have ho : (outcomes pyItemDecls ['N']).2 = .integer := by rw [py_item_outcomes]
      refine .go ⟨sat1, trivial⟩ rfl (.setvar (by rw [ho]; exact .integer t2)
        ⟨by simp, by simp, fun _ => ⟨2, by decide +kernel, by unfold Fits; omega⟩⟩
        (.feedback (plain_letter 'F' (by decide) (by decide)) (.nil _))) (.skip (fun h => sat2 h.1)
        (.stop ⟨trivial, trivial⟩ rfl ?_))
      have : Performs (fun n => (outcomes pyItemDecls n).2) [.setvar ['N'] .add "5".toList]
          ⟨fun m => if m = ['N'] then 2 else 0, fun m => m = ['F'] ∨ False⟩
          ⟨fun m => if m = ['N'] then 7 else 0, fun m => m = ['F'] ∨ False⟩ := by
        refine .setvar (by rw [ho]; exact .integer t5)
          ⟨by simp, by simp, fun _ => ⟨7, by simp [actionResult]; decide +kernel, by unfold Fits; omega⟩⟩ ?_
        have e : (fun m : Str => if m = ['N'] then actionResult .add (if ['N'] = ['N'] then 2 else 0) ((5 : Int) : Rat)
            else if m = ['N'] then 2 else 0) = fun m => if m = ['N'] then 7 else 0 := by
          funext m
          by_cases h : m = ['N']
          · subst h; decide +kernel
          · simp [h]
        rw [e]
        exact .nil _
      have e : (fun m : Str => if m = ['N'] then actionResult .add 0 ((2 : Int) : Rat) else 0) =
          fun m => if m = ['N'] then 2 else 0 := by
        funext m
        by_cases h : m = ['N']
        · subst h; decide +kernel
        · simp [h]
      show Performs _ _ ⟨fun m : Str => if m = ['N'] then actionResult .add 0 ((2 : Int) : Rat) else 0, _⟩ _
      rw [e]
      exact this)
  refine ⟨ds', rules, st', h1, h2, ?_⟩
  obtain ⟨_, v, hv, hn, hb⟩ := h3.value ['N'] (by simp)
  rw [py_item_outcomes] at hv hb
  rw [hv]
  dsimp only at hn
  rw [if_pos rfl] at hn
  generalize hq : (7 : Rat) = q at hn
  cases hn with
  | integer i =>
    have : i = 7 := Rat.intCast_inj.mp (hq.symm.trans (by rfl))
    rw [this]
  | float => cases hb

/-- **Refuted.** The limits of an outcome are declared but not kept: with a maximum of 6 the item above still ends with
seven points. -/
theorem py_limits_refuted :
    (PyMig.resProcessing pyResponses [] [{ varName := ['N'], varType := .integer, maxValue := some "6".toList }] []
        itemConditions >>= fun p => run itemSession p.2 >>= fun st' => st'.get ['N']) =
      .ok (.single (some .integer) (some (.int 7))) := by
  decide +kernel

end Verif.Props
