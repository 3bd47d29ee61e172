import Verif.Model.SaxDriver

/-! # C19: unsupported elements have no effect -/

set_option linter.unusedVariables false

namespace Verif.Props

open Verif Verif.Sax

variable {W Attrs : Type}

/-- Properly nested element content, as every XML parser reports it. -/
inductive Balanced : List (Event Attrs) → Prop where
  | nil : Balanced []
  | chars (s : Str) {es} : Balanced es → Balanced (.chars s :: es)
  | element (n : Str) (a : Attrs) {es es'} : Balanced es → Balanced es' →
      Balanced (.start n a :: (es ++ .stop n :: es'))

theorem run_append (S : Sem W Attrs) (es es' : List (Event Attrs)) : ∀ s,
    run S (es ++ es') s = run S es s >>= run S es' := by
  induction es with
  | nil => intro s; rfl
  | cons e es ih =>
    intro s
    simp only [List.cons_append, run]
    cases step S s e with
    | error x => rfl
    | ok s' => exact ih s'

/-- In skip mode nothing happens inside an unsupported element. -/
theorem run_skip (S : Sem W Attrs) {es : List (Event Attrs)} (h : Balanced es) : ∀ (s : State W) (o : Obj),
    s.cObject = some o → (o.kind = .unsupported ∨ o.kind = .skipped) → s.skipMode ≠ 0 →
    s.skipMode ≤ s.objStack.length → run S es s = .ok s := by
  induction h with
  | nil => intro s o _ _ _ _; rfl
  | chars c _ ih =>
    intro s o ho hk hs hl
    rw [run, step, characters, ho]
    simp only [hk, if_true]
    exact ih s o ho hk hs hl
  | element n a h1 h2 ih1 ih2 =>
    intro s o ho hk hs hl
    rw [run, step, start]
    simp only [ho, reduceCtorEq, false_and, if_false, hs, ne_eq, not_false_eq_true, if_true]
    show run S _ { s with cObject := some ⟨.skipped, 0⟩, objStack := some o :: s.objStack } = _
    rw [run_append, ih1 { s with cObject := some ⟨.skipped, 0⟩, objStack := some o :: s.objStack } ⟨.skipped, 0⟩ rfl
      (Or.inr rfl) hs (by simp; omega)]
    rw [show ∀ (x : State W) (es : List (Event Attrs)), (Except.ok x >>= run S es) = run S es x from fun _ _ => rfl, run, step, stop]
    have hgt : ¬ s.skipMode > s.objStack.length := by omega
    simp only [or_true, if_true, bind, Except.bind, hgt, if_false]
    have e : ({ s with cObject := some o } : State W) = s := by rw [← ho]
    have : ({ world := s.world, cObject := some o, objStack := s.objStack, skipMode := s.skipMode,
              gotRoot := s.gotRoot, log := s.log } : State W) = s := e
    rw [this]
    exact ih2 s o ho hk hs hl

/-- An unsupported element with any content, met while an ordinary element is open, leaves the driver and the world
as they were; the only trace is the message naming the element. -/
theorem run_unsupported (S : Sem W Attrs) (s : State W) (o : Obj) (n : Str) (a : Attrs) (es : List (Event Attrs))
    (ho : s.cObject = some o) (hk : o.kind = .other) (hs : s.skipMode = 0) (hn : S.supported n = false)
    (hb : Balanced es) :
    run S (.start n a :: (es ++ [.stop n])) s = .ok { s with log := s.log ++ [n] } := by
  rw [run, step, start]
  have hm : isMat (some o) = false := by simp [isMat, hk]
  simp only [ho, reduceCtorEq, false_and, if_false, hs, ne_eq, not_true_eq_false, hm, Bool.false_eq_true, hn]
  simp only [bind, Except.bind]
  rw [run_append, run_skip S hb _ ⟨.unsupported, 0⟩ rfl (Or.inl rfl) (by simp) (by simp)]
  simp only [bind, Except.bind, run, step, stop, true_or, if_true]
  have : unsupportedLog (some o) n = [n] := by simp [unsupportedLog, hk]
  rw [this]
  simp [← ho, ← hs]

/-- Reachable states: while skipping, the current object and everything up to the skipped level is a placeholder. -/
def SkipInv (s : State W) : Prop :=
  s.skipMode ≠ 0 → s.skipMode ≤ s.objStack.length ∧
    ∀ i, i ≤ s.objStack.length - s.skipMode → ∃ o, (s.cObject :: s.objStack)[i]? = some (some o) ∧
      (o.kind = .unsupported ∨ o.kind = .skipped)

theorem skipInv_step (S : Sem W Attrs) {s s' : State W} (h : SkipInv s) (e : Event Attrs)
    (hs : step S s e = .ok s') : SkipInv s' := by
  cases e with
  | chars c =>
    simp only [step, characters] at hs
    split at hs
    · cases hs
    · rename_i o _
      split at hs
      · injection hs with hs; subst hs; exact h
      · cases ha : S.addData s.world o c with
        | error x => simp [ha, bind, Except.bind] at hs
        | ok w =>
          rw [ha] at hs
          injection hs with hs; subst hs; exact h
  | start n a =>
    simp only [step, start] at hs
    split at hs
    · cases hs
    · split at hs
      · rename_i hsk
        injection hs with hs; subst hs
        intro _
        obtain ⟨h1, h2⟩ := h hsk
        refine ⟨by simp; omega, fun i hi => ?_⟩
        cases i with
        | zero => exact ⟨_, rfl, Or.inr rfl⟩
        | succ i =>
          simp only [List.length_cons] at hi
          have := h2 i (by omega)
          simpa using this
      · rename_i hsk
        have hsk : s.skipMode = 0 := by
          exact Decidable.byContradiction hsk
        split at hs
        · cases hc : S.createRaw s.world n a s.cObject with
          | error x => simp [hc, bind, Except.bind] at hs
          | ok w =>
            rw [hc] at hs
            injection hs with hs; subst hs
            intro hne; exact absurd hsk hne
        · split at hs
          · cases hc : S.create s.world n a s.cObject with
            | error x => simp [hc, bind, Except.bind] at hs
            | ok w =>
              rw [hc] at hs
              injection hs with hs; subst hs
              intro hne; exact absurd hsk hne
          · injection hs with hs; subst hs
            intro _
            refine ⟨by simp, fun i hi => ?_⟩
            simp at hi
            subst hi
            exact ⟨_, rfl, Or.inl rfl⟩
  | stop n =>
    simp only [step, stop] at hs
    split at hs
    · cases hs
    · rename_i parent rest hst
      split at hs
      · cases hs
      · rename_i o ho
        cases hw : (if o.kind = .unsupported ∨ o.kind = .skipped then (Except.ok s.world : Except Err W)
            else S.close s.world o) with
        | error x => rw [hw] at hs; simp [bind, Except.bind] at hs
        | ok w =>
          rw [hw] at hs
          simp only [bind, Except.bind] at hs
          by_cases hgt : s.skipMode > rest.length
          · simp only [hgt, if_true] at hs
            cases parent with
            | none => injection hs with hs; subst hs; intro hne; exact absurd rfl hne
            | some p => injection hs with hs; subst hs; intro hne; exact absurd rfl hne
          · simp only [hgt, if_false] at hs
            cases parent with
            | none =>
              injection hs with hs; subst hs
              intro hne
              obtain ⟨h1, h2⟩ := h hne
              exfalso
              obtain ⟨o', ho', _⟩ := h2 1 (by rw [hst]; simp at hgt ⊢; have := hne; simp at this; omega)
              rw [hst] at ho'
              simp at ho'
            | some p =>
              injection hs with hs; subst hs
              intro hne
              obtain ⟨h1, h2⟩ := h hne
              refine ⟨by show s.skipMode ≤ rest.length; omega, fun i hi => ?_⟩
              have hi : i ≤ rest.length - s.skipMode := hi
              obtain ⟨o', ho', hk⟩ := h2 (i + 1) (by rw [hst]; simp; omega)
              rw [hst] at ho'
              exact ⟨o', by simpa using ho', hk⟩

theorem skipInv_run (S : Sem W Attrs) (es : List (Event Attrs)) : ∀ {s s' : State W}, SkipInv s →
    run S es s = .ok s' → SkipInv s' := by
  induction es with
  | nil => intro s s' h hr; injection hr with hr; subst hr; exact h
  | cons e es ih =>
    intro s s' h hr
    rw [run] at hr
    cases hst : step S s e with
    | error x => rw [hst] at hr; cases hr
    | ok s'' => rw [hst] at hr; exact ih (skipInv_step S h e hst) hr

/-- The outcome of a run without the messages printed. -/
def forget (s : State W) : State W := { s with log := [] }

theorem step_forget (S : Sem W Attrs) (s : State W) (e : Event Attrs) :
    (step S s e).map forget = (step S (forget s) e).map forget := by
  obtain ⟨w, c, st, sk, g, l⟩ := s
  cases e with
  | chars ch =>
    simp only [step, characters, forget]
    cases c with
    | none => rfl
    | some o =>
      dsimp only
      by_cases h : o.kind = .unsupported ∨ o.kind = .skipped
      · simp only [h, if_true]; rfl
      · simp only [h, if_false]; cases S.addData w o ch <;> rfl
  | start n a =>
    simp only [step, start, forget]
    by_cases h1 : c = none ∧ g = true
    · simp only [h1, and_self, if_true]
    · simp only [h1, if_false]
      by_cases h2 : sk ≠ 0
      · simp only [h2, ne_eq, not_false_eq_true, if_true]; rfl
      · simp only [h2, if_false]
        by_cases h3 : isMat c = true
        · simp only [h3, if_true]; cases S.createRaw w n a c <;> rfl
        · simp only [h3]
          by_cases h4 : S.supported n = true
          · simp only [h4, if_true]; cases S.create w n a c <;> rfl
          · simp only [h4]; rfl
  | stop n =>
    simp only [step, stop, forget]
    cases st with
    | nil => rfl
    | cons p rest =>
      cases c with
      | none => rfl
      | some o =>
        dsimp only
        cases (if o.kind = .unsupported ∨ o.kind = .skipped then (Except.ok w : Except Err W) else S.close w o) with
        | error x => rfl
        | ok w' =>
          simp only [bind, Except.bind]
          by_cases h : sk > rest.length <;> simp only [h, if_true, if_false] <;> cases p <;> rfl

theorem run_forget (S : Sem W Attrs) (es : List (Event Attrs)) : ∀ s : State W,
    (run S es s).map forget = (run S es (forget s)).map forget := by
  induction es with
  | nil => intro s; rfl
  | cons e es ih =>
    intro s
    have h := step_forget S s e
    rw [run, run]
    cases h1 : step S s e with
    | error x =>
      cases h2 : step S (forget s) e with
      | error y => rw [h1, h2] at h; simpa [Except.map, bind, Except.bind] using h
      | ok t => rw [h1, h2] at h; simp [Except.map] at h
    | ok t1 =>
      cases h2 : step S (forget s) e with
      | error y => rw [h1, h2] at h; simp [Except.map] at h
      | ok t2 =>
        rw [h1, h2] at h
        simp only [Except.map, Except.ok.injEq] at h
        show (run S es t1).map forget = (run S es t2).map forget
        rw [ih t1, ih t2, h]

/-- **C19.**  Take any document for which an ordinary element (not embedded material) is open after the events `pre`.
Inserting there an element of an unsupported type, with any properly nested content, makes no difference: the rest
of the document is processed as if the element were absent, with the same resulting world, or the same error.
This holds for every semantics of the supported elements. -/
theorem unsupported_elements_ignored (S : Sem W Attrs) (w : W) (pre post es : List (Event Attrs)) (n : Str) (a : Attrs)
    (s : State W) (o : Obj) (hpre : run S pre { world := w } = .ok s) (ho : s.cObject = some o) (hk : o.kind = .other)
    (hn : S.supported n = false) (hb : Balanced es) :
    (run S (pre ++ (.start n a :: (es ++ [.stop n])) ++ post) { world := w }).map forget =
      (run S (pre ++ post) { world := w }).map forget := by
  have hs : s.skipMode = 0 := by
    refine Decidable.byContradiction fun hne => ?_
    have hi := skipInv_run S pre (s := { world := w }) (fun h => absurd rfl h) hpre
    obtain ⟨o', ho', hk'⟩ := (hi hne).2 0 (by omega)
    simp [ho] at ho'
    subst ho'
    rw [hk] at hk'
    simp at hk'
  rw [run_append, run_append, run_append, hpre]
  show (run S _ s >>= run S post).map forget = (run S post s).map forget
  rw [run_unsupported S s o n a es ho hk hs hn hb]
  show (run S post { s with log := s.log ++ [n] }).map forget = _
  rw [run_forget, run_forget S post s]
  rfl

/-- A concrete semantics: the world is the list of texts received; only `item` is supported. -/
def demoSem : Sem (List Str) Unit where
  supported n := n = "item".toList
  create w _ _ _ := .ok (w, false, 0)
  createRaw w _ _ _ := .ok (w, 0)
  addData w _ c := .ok (w ++ [c])
  close w _ := .ok (w ++ ["/".toList])

example : (run demoSem [.start "item".toList (), .chars "x".toList, .start "objectbank".toList (), .chars "y".toList,
      .start "item".toList (), .stop "item".toList, .stop "objectbank".toList, .chars "z".toList, .stop "item".toList]
      { world := [] }).map (·.world) = .ok ["x".toList, "z".toList, "/".toList] := by
  decide +kernel

end Verif.Props
