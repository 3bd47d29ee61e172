import Verif.Props.PyMigrate

/-!
# The library's migration of version 1 items: declarations, feedback, files; cases that fail
-/

namespace Verif.Props

open Verif Verif.Qti Verif.Spec Verif.V1 Verif.Spec.PyMig

set_option linter.unusedVariables false

/-! ## Views -/

/-- **Views.** Whatever the text of a view, if it is read, what was meant for everyone is for each role of version 2;
anything else is for exactly one role, and for the candidate only if it named the candidate; unchanged names carry no
warning. -/
theorem py_view_kept (text : Str) (v : PyMig.View) (h : PyMig.readView text = .ok v) :
    (v = .all → ∀ r, r ∈ (PyMig.view v).1) ∧ (v ≠ .all → ∃ r, (PyMig.view v).1 = [r]) ∧
    (PyMig.View2.candidate ∈ (PyMig.view v).1 ↔ v = .candidate ∨ v = .all) ∧
    (v = .candidate ↔ Py.lower (Names.strip text) = "candidate".toList) ∧
    (v = .all ↔ Py.lower (Names.strip text) = "all".toList) := by
  unfold PyMig.readView at h
  refine ⟨?_, ?_, ?_, ?_⟩
  · rintro rfl r
    cases r <;> decide
  · intro hv
    cases v <;> first | exact absurd rfl hv | exact ⟨_, rfl⟩
  · cases v <;> decide
  · generalize Py.lower (Names.strip text) = s at h
    cases hf : PyMig.viewNames.find? (fun p => decide (p.1 = s)) with
    | none => rw [hf] at h; cases h
    | some p =>
      rw [hf] at h
      cases h
      have hm := List.mem_of_find?_eq_some hf
      have hs := List.find?_some hf
      simp only [decide_eq_true_eq] at hs
      subst hs
      revert hm
      have : ∀ q ∈ PyMig.viewNames, (q.2 = .candidate ↔ q.1 = "candidate".toList) ∧ (q.2 = .all ↔ q.1 = "all".toList) := by
        decide +kernel
      exact this p

/-- **Views.** Each name is for the role of version 2 of that name, or the one that takes its place; other texts than
those and `all` are refused. -/
theorem py_view_role (text : Str) :
    (∀ p ∈ roleNames, Py.lower (Names.strip text) = p.1 →
      ∃ v, PyMig.readView text = .ok v ∧ (PyMig.view v).1 = [p.2]) ∧
    (Py.lower (Names.strip text) = "all".toList → PyMig.readView text = .ok .all) ∧
    (Py.lower (Names.strip text) ∉ roleNames.map (·.1) → Py.lower (Names.strip text) ≠ "all".toList →
      PyMig.readView text = .error .valueError) := by
  unfold PyMig.readView
  generalize Py.lower (Names.strip text) = s
  refine ⟨?_, ?_, ?_⟩
  · intro p hp he
    subst he
    revert p
    have : ∀ p ∈ roleNames, (match PyMig.viewNames.find? (fun q => q.1 = p.1) with
        | some q => decide ((PyMig.view q.2).1 = [p.2])
        | none => false) = true := by decide +kernel
    intro p hp
    have h := this p hp
    cases hf : PyMig.viewNames.find? (fun q => decide (q.1 = p.1)) with
    | none => rw [hf] at h; cases h
    | some q =>
      rw [hf] at h
      exact ⟨_, rfl, of_decide_eq_true h⟩
  · rintro rfl
    decide +kernel
  · intro h1 h2
    cases hf : PyMig.viewNames.find? (fun q => decide (q.1 = s)) with
    | none => rfl
    | some q =>
      have hm := List.mem_of_find?_eq_some hf
      have hs := List.find?_some hf
      simp only [decide_eq_true_eq] at hs
      subst hs
      have : ∀ q ∈ PyMig.viewNames, q.1 ∈ roleNames.map (·.1) ∨ q.1 = "all".toList := by decide +kernel
      rcases this q hm with h | h
      · exact absurd h h1
      · exact absurd h h2

/-- Case and white space around the name make no difference. -/
theorem py_view_case (s t : Str) (h : Py.lower (Names.strip s) = Py.lower (Names.strip t)) :
    PyMig.readView s = PyMig.readView t := by
  unfold PyMig.readView
  rw [h]

example : PyMig.readView " Candidate ".toList = .ok .candidate ∧ PyMig.readView "PROCTOR".toList = .ok .invigilatorProctor ∧
    PyMig.readView "pupil".toList = .error .valueError := by decide +kernel

/-! ## Outcomes -/

theorem register_new {ds : PyMig.Decls} {id : Str} (h : Dict.get ds id = none) (d : PyMig.Decl) :
    PyMig.register ds id d = .ok (Dict.set ds id d) := by
  unfold PyMig.register
  rw [if_neg]
  intro hh
  obtain ⟨v, hv⟩ := (dict_get_has ds id).mp hh
  rw [h] at hv
  cases hv

/-- The base type an outcome should have. -/
def intendedType : PyMig.VarType → BaseType
  | .integer => .integer
  | .string => .string
  | .decimal => .float
  | .scientific => .float
  | .boolean => .boolean
  | .enumerated => .identifier
  | .set => .identifier

/-- **Outcomes (guarded).** An outcome that is not of type `Boolean`, with limits that are numbers and an identifier that
is not declared, is declared as single, with the base type for its type, its default and its limits; the mastery value
for numbers only.  Nothing else changes. -/
theorem py_outcome_declared_partial (ds : PyMig.Decls) (v : PyMig.DecVar) (ht : v.varType ≠ .boolean)
    (hnew : Dict.get ds (PyMig.ident v.varName) = none) (lo hi cut : Option Rat)
    (hlo : PyMig.floatOpt v.minValue = .ok lo) (hhi : PyMig.floatOpt v.maxValue = .ok hi)
    (hcut : PyMig.floatOpt v.cutValue = .ok cut) :
    ∃ ds' d, PyMig.decVar ds v = .ok ds' ∧ Dict.get ds' (PyMig.ident v.varName) = some d ∧
      d.kind = .outcome ∧ d.card = .single ∧ d.bt = intendedType v.varType ∧ d.default = v.defaultValue ∧
      d.normalMinimum = lo ∧ d.normalMaximum = hi ∧
      d.masteryValue = (if d.bt = .integer ∨ d.bt = .float then cut else none) ∧
      ∀ k, k ≠ PyMig.ident v.varName → Dict.get ds' k = Dict.get ds k := by
  have htype : PyMig.varType v.varType = .ok (intendedType v.varType) := by
    revert ht
    cases v.varType <;> decide
  refine ⟨Dict.set ds (PyMig.ident v.varName)
    { kind := .outcome, card := .single, bt := intendedType v.varType, default := v.defaultValue, normalMinimum := lo,
      normalMaximum := hi,
      masteryValue := if intendedType v.varType = .integer ∨ intendedType v.varType = .float then cut else none },
    _, ?_, by rw [Dict.get_set, if_pos rfl], rfl, rfl, rfl, rfl, rfl, rfl, rfl, fun k hk => ?_⟩
  · unfold PyMig.decVar
    by_cases hn : intendedType v.varType = .integer ∨ intendedType v.varType = .float
    · simp only [htype, hlo, hhi, bind, Except.bind, if_pos hn, hcut]
      exact register_new hnew _
    · simp only [htype, hlo, hhi, bind, Except.bind, if_neg hn]
      exact register_new hnew _
  · rw [Dict.get_set, if_neg hk]

example : ∃ ds' d, PyMig.decVar [] { varName := "SCORE".toList, varType := .integer, maxValue := some "10".toList } = .ok ds' ∧
    Dict.get ds' "SCORE".toList = some d ∧ d.bt = .integer ∧ d.normalMaximum = some 10 := by
  obtain ⟨ds', d, h1, h2, _, _, h3, _, _, h4, _⟩ := py_outcome_declared_partial []
    { varName := "SCORE".toList, varType := .integer, maxValue := some "10".toList } (by simp) rfl none (some 10) none rfl
    (by decide +kernel) rfl
  have e : PyMig.ident "SCORE".toList = "SCORE".toList := by decide +kernel
  exact ⟨ds', d, h1, by rw [← e]; exact h2, h3, h4⟩

/-- **Refuted.** Every outcome of type `Boolean` that is declared becomes an identifier. -/
theorem py_boolean_outcome_refuted (ds ds' : PyMig.Decls) (v : PyMig.DecVar) (ht : v.varType = .boolean)
    (h : PyMig.decVar ds v = .ok ds') :
    ∃ d, Dict.get ds' (PyMig.ident v.varName) = some d ∧ d.bt = .identifier := by
  have htype : PyMig.varType v.varType = .ok .identifier := by rw [ht]; decide
  unfold PyMig.decVar at h
  rw [htype] at h
  obtain ⟨bt, hb, h⟩ := bind_ok h
  cases hb
  obtain ⟨lo, _, h⟩ := bind_ok h
  obtain ⟨hi, _, h⟩ := bind_ok h
  obtain ⟨cut, _, h⟩ := bind_ok h
  unfold PyMig.register at h
  split at h
  · cases h
  · cases h
    exact ⟨_, by rw [Dict.get_set, if_pos rfl], rfl⟩

/-- Such an outcome with default `true` exists, and is declared. -/
example : ∃ ds', PyMig.decVar [] { varName := "PASSED".toList, varType := .boolean, defaultValue := some "true".toList } =
    .ok ds' := ⟨_, rfl⟩

/-- **Refuted.** Two outcomes, or an outcome and a response, whose names have the same identifier, cannot be migrated:
the second declaration is an error, whatever its type and limits. -/
theorem py_name_collision_fails (ds : PyMig.Decls) (v : PyMig.DecVar) (d : PyMig.Decl)
    (hold : Dict.get ds (PyMig.ident v.varName) = some d) : ∃ e, PyMig.decVar ds v = .error e := by
  cases hr : PyMig.decVar ds v with
  | error e => exact ⟨e, rfl⟩
  | ok ds' =>
    unfold PyMig.decVar at hr
    obtain ⟨bt, hb, h⟩ := bind_ok hr
    obtain ⟨lo, _, h⟩ := bind_ok h
    obtain ⟨hi, _, h⟩ := bind_ok h
    obtain ⟨cut, _, h⟩ := bind_ok h
    unfold PyMig.register at h
    rw [if_pos ((dict_get_has ds _).mpr ⟨d, hold⟩)] at h
    cases h

/-- Different names with the same identifier. -/
example : PyMig.ident "my score".toList = PyMig.ident "my_score".toList := by decide +kernel

/-- **All outcomes.** If the outcomes of an item are declared without an error, each of them is, as single outcome with
its default; nothing that was declared before changes, and nothing else is declared. -/
theorem py_outcomes_declared : ∀ (vars : List PyMig.DecVar) (ds ds' : PyMig.Decls), PyMig.decVars ds vars = .ok ds' →
    (∀ v ∈ vars, Dict.get ds (PyMig.ident v.varName) = none ∧ ∃ d, Dict.get ds' (PyMig.ident v.varName) = some d ∧
      d.kind = .outcome ∧ d.card = .single ∧ d.default = v.defaultValue) ∧
    (∀ k, (∀ v ∈ vars, PyMig.ident v.varName ≠ k) → Dict.get ds' k = Dict.get ds k) ∧
    (vars.map fun v => PyMig.ident v.varName).Nodup
  | [], ds, ds', h => by
    cases h
    exact ⟨fun v hv => absurd hv List.not_mem_nil, fun _ _ => rfl, List.nodup_nil⟩
  | v :: vars, ds, ds', h => by
    rw [PyMig.decVars] at h
    obtain ⟨ds1, h1, h2⟩ := bind_ok h
    obtain ⟨a1, a2, a3⟩ := py_outcomes_declared vars ds1 ds' h2
    unfold PyMig.decVar at h1
    obtain ⟨bt, _, h1⟩ := bind_ok h1
    obtain ⟨lo, _, h1⟩ := bind_ok h1
    obtain ⟨hi, _, h1⟩ := bind_ok h1
    obtain ⟨cut, _, h1⟩ := bind_ok h1
    unfold PyMig.register at h1
    split at h1
    · cases h1
    next hnew =>
    cases h1
    have hnone : Dict.get ds (PyMig.ident v.varName) = none := by
      cases hg : Dict.get ds (PyMig.ident v.varName) with
      | none => rfl
      | some d => exact absurd ((dict_get_has ds _).mpr ⟨d, hg⟩) hnew
    have apart : ∀ w ∈ vars, PyMig.ident w.varName ≠ PyMig.ident v.varName := by
      intro w hw e
      have := (a1 w hw).1
      rw [Dict.get_set, if_pos e] at this
      cases this
    refine ⟨?_, ?_, ?_⟩
    · intro w hw
      rcases List.mem_cons.mp hw with rfl | hw
      · exact ⟨hnone, _, (a2 _ apart).trans (by rw [Dict.get_set, if_pos rfl]), rfl, rfl, rfl⟩
      · obtain ⟨b1, d, b2, b3⟩ := a1 w hw
        rw [Dict.get_set, if_neg (apart w hw)] at b1
        exact ⟨b1, d, b2, b3⟩
    · intro k hk
      rw [a2 k fun w hw => hk w (List.mem_cons_of_mem _ hw), Dict.get_set, if_neg (fun e => hk v (List.mem_cons_self ..) e.symm)]
    · rw [List.map_cons, List.nodup_cons]
      refine ⟨fun hm => ?_, a3⟩
      obtain ⟨w, hw, e⟩ := List.mem_map.mp hm
      exact apart w hw e

/-- Two outcomes are declared. -/
example : ∃ ds', PyMig.decVars [] [{ varName := "SCORE".toList, varType := .integer },
    { varName := "TIME".toList, varType := .decimal, defaultValue := some "0".toList }] = .ok ds' := ⟨_, rfl⟩

/-! ## Interpretations -/

/-- **Interpretations.** The texts for one outcome are put together, in order and separated by semicolons. -/
theorem py_interpretation_joined (ds : PyMig.Decls) (n text : Str) (d : PyMig.Decl)
    (h : Dict.get ds (PyMig.ident n) = some d) :
    ∃ ds' d', PyMig.interpretVar ds n text = .ok ds' ∧ Dict.get ds' (PyMig.ident n) = some d' ∧
      d' = { d with interpretation := if d.interpretation = [] then text else d.interpretation ++ "; ".toList ++ text } ∧
      ∀ k, k ≠ PyMig.ident n → Dict.get ds' k = Dict.get ds k := by
  refine ⟨_, _, by unfold PyMig.interpretVar; rw [h], by rw [Dict.get_set, if_pos rfl], ?_, fun k hk => by
    rw [Dict.get_set, if_neg hk]⟩
  by_cases hi : d.interpretation = [] <;> simp [hi]

/-- An interpretation of an outcome that is not declared stops the migration. -/
theorem py_interpretation_undeclared (ds : PyMig.Decls) (n text : Str) (h : Dict.get ds (PyMig.ident n) = none) :
    PyMig.interpretVar ds n text = .error .attributeError := by
  unfold PyMig.interpretVar
  rw [h]

/-! ## Responses with several interactions -/

theorem twoDigits_spec (base : Str) (i : Nat) : base ++ '_' :: PyMig.twoDigits i = blankName base i := by
  unfold PyMig.twoDigits blankName
  split <;> rfl

theorem findName_free {ds : PyMig.Decls} {base : Str} {i : Nat} (h : Dict.get ds (blankName base i) = none) (fuel : Nat) :
    PyMig.findName ds base i (fuel + 1) = some (blankName base i) := by
  unfold PyMig.findName
  rw [twoDigits_spec]
  dsimp only
  rw [if_neg]
  intro hh
  obtain ⟨v, hv⟩ := (dict_get_has _ _).mp hh
  rw [h] at hv
  cases hv

theorem findNames_free {ds : PyMig.Decls} {base : Str} (fuel : Nat) : ∀ (n i : Nat),
    (∀ j, i ≤ j → j < i + n → Dict.get ds (blankName base j) = none) →
    PyMig.findNames ds base (fuel + 1) i n = some ((List.range' i n).map (blankName base))
  | 0, i, _ => rfl
  | n + 1, i, h => by
    rw [PyMig.findNames, findName_free (h i (Nat.le_refl i) (by omega)),
      findNames_free fuel n (i + 1) fun j h1 h2 => h j (by omega) (by omega)]
    rfl

theorem strNat_pad {i j : Nat} (h : PyMig.twoDigits i = PyMig.twoDigits j) : i = j := by
  have key : ∀ n, Py.digitsVal 10 (PyMig.twoDigits n) = n := by
    intro n
    unfold PyMig.twoDigits
    split
    · show Py.digitsVal 10 ('0' :: Py.strNat n) = n
      have : Py.digitsVal 10 ('0' :: Py.strNat n) = Py.digitsVal 10 (Py.strNat n) := by
        unfold Py.digitsVal
        rw [List.foldl_cons]
        rfl
      rw [this, XmlUtils.strNat_val]
    · exact XmlUtils.strNat_val n
  rw [← key i, h, key j]

theorem blankName_inj {base : Str} {i j : Nat} (h : blankName base i = blankName base j) : i = j := by
  rw [← twoDigits_spec, ← twoDigits_spec] at h
  have := List.append_cancel_left h
  exact strNat_pad (List.cons.inj this).2

theorem registerAll_ok (d : PyMig.Decl) : ∀ (names : List Str) (ds : PyMig.Decls), names.Nodup →
    (∀ n ∈ names, Dict.get ds n = none) → ∃ ds', PyMig.registerAll d ds names = .ok ds' ∧
      (∀ n ∈ names, Dict.get ds' n = some d) ∧ ∀ k, k ∉ names → Dict.get ds' k = Dict.get ds k
  | [], ds, _, _ => ⟨ds, rfl, by simp, fun _ _ => rfl⟩
  | n :: names, ds, hnd, hfree => by
    obtain ⟨hn, hnd'⟩ := List.nodup_cons.mp hnd
    obtain ⟨ds', h1, h2, h3⟩ := registerAll_ok d names (Dict.set ds n d) hnd' (by
      intro m hm
      have hmn : m ≠ n := by rintro rfl; exact hn hm
      rw [Dict.get_set, if_neg hmn]
      exact hfree m (List.mem_cons_of_mem _ hm))
    refine ⟨ds', ?_, ?_, ?_⟩
    · rw [PyMig.registerAll, register_new (hfree n (List.mem_cons_self ..))]
      exact h1
    · intro m hm
      rcases List.mem_cons.mp hm with rfl | hm
      · rw [h3 m hn, Dict.get_set, if_pos rfl]
      · exact h2 m hm
    · intro k hk
      have hkn : k ≠ n := by rintro rfl; exact hk (List.mem_cons_self ..)
      rw [h3 k (fun h => hk (List.mem_cons_of_mem _ h)), Dict.get_set, if_neg hkn]

/-- **One response for each interaction (guarded).** A response with cardinality `Multiple` or `Ordered` that becomes
several interactions, when neither its identifier nor the numbered ones are in use, is given one response for each
interaction, all different, with the cardinality and base type of the response, and an outcome with its identifier.
Nothing else is declared. -/
theorem py_blanks_declared_partial (fuel : Nat) (ds : PyMig.Decls) (q : PyMig.Question) (card : Card)
    (hn : 2 ≤ q.interactions) (hc : q.card = some card) (hk : card = .multiple ∨ card = .ordered)
    (hbase : Dict.get ds (PyMig.ident q.name) = none)
    (hfree : ∀ i, Dict.get ds (blankName (PyMig.ident q.name) i) = none) :
    ∃ ds' names, PyMig.declareQuestion (fuel + 1) ds q = some (.ok (ds', names, [(PyMig.ident q.name, names)])) ∧
      names.length = q.interactions ∧ names.Nodup ∧
      (∀ n ∈ names, ∃ d, Dict.get ds' n = some d ∧ d.kind = .response ∧ d.card = card ∧ d.bt = q.bt ∧
        d.default = q.default) ∧
      (∃ d, Dict.get ds' (PyMig.ident q.name) = some d ∧ d.kind = .outcome ∧ d.card = card ∧ d.bt = q.bt) ∧
      ∀ k, k ∉ names → k ≠ PyMig.ident q.name → Dict.get ds' k = Dict.get ds k := by
  have hns : ¬ (q.interactions > 1 ∧ q.card = some .single) := by
    rw [hc]
    rintro ⟨_, h⟩
    rcases hk with rfl | rfl <;> cases h
  have hcard : PyMig.cardinality q.card = .ok card := by
    rw [hc]
    rcases hk with rfl | rfl <;> rfl
  have hnd : ((List.range' 1 q.interactions).map (blankName (PyMig.ident q.name))).Nodup := by
    have : ∀ l : List Nat, l.Nodup → (l.map (blankName (PyMig.ident q.name))).Nodup := by
      intro l
      induction l with
      | nil => intro _; exact List.nodup_nil
      | cons a l ih =>
        intro h
        obtain ⟨h1, h2⟩ := List.nodup_cons.mp h
        rw [List.map_cons, List.nodup_cons]
        refine ⟨?_, ih h2⟩
        intro hm
        obtain ⟨b, hb, he⟩ := List.mem_map.mp hm
        rw [blankName_inj he] at hb
        exact h1 hb
    exact this _ List.nodup_range'
  have hlen : ((List.range' 1 q.interactions).map (blankName (PyMig.ident q.name))).length = q.interactions := by
    rw [List.length_map, List.length_range']
  have hfind : PyMig.findNames ds (PyMig.ident q.name) (fuel + 1) 1 q.interactions =
      some ((List.range' 1 q.interactions).map (blankName (PyMig.ident q.name))) :=
    findNames_free fuel _ _ fun j _ _ => hfree j
  have hnotbase : PyMig.ident q.name ∉ (List.range' 1 q.interactions).map (blankName (PyMig.ident q.name)) := by
    intro hm
    obtain ⟨i, _, he⟩ := List.mem_map.mp hm
    have := congrArg List.length he
    unfold blankName at this
    simp at this
  obtain ⟨ds1, h1, h2, h3⟩ := registerAll_ok { kind := .response, card := card, bt := q.bt, default := q.default } _ ds hnd
    (fun n hn => by
      obtain ⟨i, _, rfl⟩ := List.mem_map.mp hn
      exact hfree i)
  generalize hl : (List.range' 1 q.interactions).map (blankName (PyMig.ident q.name)) = names at *
  have hne : names ≠ [] := by
    intro h
    rw [h] at hlen
    simp at hlen
    omega
  have hbase1 : Dict.get ds1 (PyMig.ident q.name) = none := by rw [h3 _ hnotbase]; exact hbase
  refine ⟨Dict.set ds1 (PyMig.ident q.name) { kind := .outcome, card := card, bt := q.bt }, names, ?_, hlen, hnd, ?_, ?_, ?_⟩
  · unfold PyMig.declareQuestion
    rw [if_neg hns]
    dsimp only
    rw [if_pos (show q.interactions > 1 by omega), hfind]
    dsimp only
    rw [if_neg hne, hcard]
    simp only [bind, Except.bind, h1, if_pos (show names.length > 1 by omega), register_new hbase1]
  · intro n hn
    have hnb : n ≠ PyMig.ident q.name := by rintro rfl; exact hnotbase hn
    refine ⟨{ kind := .response, card := card, bt := q.bt, default := q.default }, ?_, rfl, rfl, rfl, rfl⟩
    rw [Dict.get_set, if_neg hnb]
    exact h2 n hn
  · exact ⟨_, by rw [Dict.get_set, if_pos rfl], rfl, rfl, rfl⟩
  · intro k hk hkb
    rw [Dict.get_set, if_neg hkb, h3 k hk]

/-- The hypotheses are met by two blanks in an item without declarations. -/
example : ∃ ds' names, PyMig.declareQuestion 1 [] ⟨"BLANKS".toList, some .multiple, .string, 2, none⟩ =
    some (.ok (ds', names, [("BLANKS".toList, names)])) ∧ names.length = 2 := by
  obtain ⟨ds', names, h1, h2, _⟩ := py_blanks_declared_partial 0 [] ⟨"BLANKS".toList, some .multiple, .string, 2, none⟩
    .multiple (by decide) rfl (Or.inl rfl) rfl (fun _ => rfl)
  have e : PyMig.ident "BLANKS".toList = "BLANKS".toList := by decide +kernel
  rw [e] at h1
  exact ⟨ds', names, h1, h2⟩

/-- A response with one interaction is declared under its identifier. -/
theorem py_response_declared (fuel : Nat) (ds : PyMig.Decls) (q : PyMig.Question) (card : Card) (hn : q.interactions = 1)
    (hc : q.card = some card) (hk : card = .single ∨ card = .multiple ∨ card = .ordered)
    (hbase : Dict.get ds (PyMig.ident q.name) = none) :
    ∃ ds', PyMig.declareQuestion fuel ds q = some (.ok (ds', [PyMig.ident q.name], [])) ∧
      ds' = Dict.set ds (PyMig.ident q.name) { kind := .response, card := card, bt := q.bt, default := q.default } := by
  have hcard : PyMig.cardinality q.card = .ok card := by
    rw [hc]
    rcases hk with rfl | rfl | rfl <;> rfl
  refine ⟨_, ?_, rfl⟩
  unfold PyMig.declareQuestion
  rw [if_neg (by omega)]
  dsimp only
  rw [if_neg (by omega), if_pos hn]
  dsimp only
  rw [if_neg (by simp), hcard]
  simp only [bind, Except.bind, PyMig.registerAll, register_new hbase, List.length_cons, List.length_nil]
  rfl

/-- **Refuted.** If the name for one of several interactions is in use, migration never ends: it is still looking for
a name after any number of rounds. -/
theorem py_naming_never_ends (fuel : Nat) (ds : PyMig.Decls) (q : PyMig.Question) (d : PyMig.Decl)
    (hn : 2 ≤ q.interactions) (hc : q.card ≠ some .single)
    (hused : Dict.get ds (blankName (PyMig.ident q.name) 1) = some d) : PyMig.declareQuestion fuel ds q = none := by
  have loop : ∀ fuel, PyMig.findName ds (PyMig.ident q.name) 1 fuel = none := by
    intro fuel
    induction fuel with
    | zero => rfl
    | succ n ih =>
      unfold PyMig.findName
      rw [twoDigits_spec]
      dsimp only
      rw [if_pos ((dict_get_has _ _).mpr ⟨d, hused⟩)]
      exact ih
  unfold PyMig.declareQuestion
  rw [if_neg (fun h => hc h.2)]
  dsimp only
  rw [if_pos (show q.interactions > 1 by omega)]
  obtain ⟨m, hm⟩ : ∃ m, q.interactions = m + 1 := ⟨q.interactions - 1, by omega⟩
  rw [hm, PyMig.findNames, loop fuel]

/-- A choice `BLANKS_01` before the blanks `BLANKS`. -/
example (fuel : Nat) : ∃ ds, PyMig.declareQuestion 0 [] ⟨"BLANKS_01".toList, some .single, .identifier, 1, none⟩ =
      some (.ok (ds, ["BLANKS_01".toList], [])) ∧
    PyMig.declareQuestion fuel ds ⟨"BLANKS".toList, some .multiple, .string, 2, none⟩ = none := by
  have e1 : PyMig.ident "BLANKS_01".toList = "BLANKS_01".toList := by decide +kernel
  have e2 : blankName (PyMig.ident "BLANKS".toList) 1 = "BLANKS_01".toList := by decide +kernel
  obtain ⟨ds, h1, h2⟩ := py_response_declared 0 [] ⟨"BLANKS_01".toList, some .single, .identifier, 1, none⟩ .single rfl rfl
    (Or.inl rfl) rfl
  rw [e1] at h1
  refine ⟨ds, h1, py_naming_never_ends fuel ds _ ⟨.response, .single, .identifier, none, none, none, none, []⟩ (by decide)
    (by decide) ?_⟩
  rw [e2, h2]
  show Dict.get (Dict.set _ (PyMig.ident "BLANKS_01".toList) _) _ = _
  rw [e1, Dict.get_set, if_pos rfl]

/-- **Refuted.** A response with cardinality `Single` and several interactions is left out: nothing is declared. -/
theorem py_single_blanks_lost (fuel : Nat) (ds : PyMig.Decls) (q : PyMig.Question) (hn : 2 ≤ q.interactions)
    (hc : q.card = some .single) : PyMig.declareQuestion fuel ds q = some (.ok (ds, [], [])) := by
  unfold PyMig.declareQuestion
  rw [if_pos ⟨by omega, hc⟩]

/-- **Refuted.** A response without cardinality, which is one of cardinality `Single`, stops the migration, whatever
else it says. -/
theorem py_default_cardinality_refuted (fuel : Nat) (ds : PyMig.Decls) (q : PyMig.Question) (hn : q.interactions = 1)
    (hc : q.card = none) : PyMig.declareQuestion fuel ds q = some (.error .keyError) := by
  unfold PyMig.declareQuestion
  rw [if_neg (by omega)]
  dsimp only
  rw [if_neg (by omega), if_pos hn]
  dsimp only
  rw [if_neg (by simp), hc]
  rfl

/-! ## Putting the answers to several interactions together -/

theorem pointwise_variables {st : State} {bt : BaseType} : ∀ (ids : List Str),
    (∀ id ∈ ids, ∃ as, st.get id = .ok (.multiple (some bt) as)) →
    ∃ vs, Pointwise (fun e v => eval st e = .ok v) (ids.map fun id => (.leaf (.variable id) : Expr)) vs ∧
      (∀ v ∈ vs, ∃ as, v = .multiple (some bt) as) ∧
      (∀ a, (∃ v ∈ vs, a ∈ members v) ↔ ∃ id ∈ ids, ∃ as, st.get id = .ok (.multiple (some bt) as) ∧ a ∈ as) ∧
      vs.length = ids.length
  | [], _ => ⟨[], .nil, by simp, by simp, rfl⟩
  | id :: ids, h => by
    obtain ⟨as, has⟩ := h id (List.mem_cons_self ..)
    obtain ⟨vs, h1, h2, h3, h4⟩ := pointwise_variables ids fun i hi => h i (List.mem_cons_of_mem _ hi)
    refine ⟨_ :: vs, .cons (variable_eval has) h1, ?_, ?_, by simp [h4]⟩
    · intro v hv
      rcases List.mem_cons.mp hv with rfl | hv
      · exact ⟨as, rfl⟩
      · exact h2 v hv
    · intro a
      constructor
      · rintro ⟨v, hv, ha⟩
        rcases List.mem_cons.mp hv with rfl | hv
        · exact ⟨id, List.mem_cons_self .., as, has, ha⟩
        · obtain ⟨i, hi, bs, e1, e2⟩ := (h3 a).mp ⟨v, hv, ha⟩
          exact ⟨i, List.mem_cons_of_mem _ hi, bs, e1, e2⟩
      · rintro ⟨i, hi, bs, e1, e2⟩
        rcases List.mem_cons.mp hi with rfl | hi
        · rw [has] at e1
          cases e1
          exact ⟨_, List.mem_cons_self .., e2⟩
        · obtain ⟨v, hv, ha⟩ := (h3 a).mpr ⟨i, hi, bs, e1, e2⟩
          exact ⟨v, List.mem_cons_of_mem _ hv, ha⟩

theorem occurs_pos (a : Atom) (l : List Atom) : a ∈ l ↔ 0 < occurrences a l := by
  unfold occurrences
  rw [List.length_pos_iff_exists_mem]
  constructor
  · intro h
    exact ⟨a, by simp [h]⟩
  · rintro ⟨c, hc⟩
    simp at hc
    rw [← hc.2]
    exact hc.1

theorem sum_pos_iff : ∀ l : List Nat, 0 < l.sum ↔ ∃ n ∈ l, 0 < n
  | [] => by simp
  | n :: l => by
    rw [List.sum_cons]
    have := sum_pos_iff l
    constructor
    · intro h
      by_cases hn : 0 < n
      · exact ⟨n, List.mem_cons_self .., hn⟩
      · obtain ⟨m, hm, hp⟩ := this.mp (by omega)
        exact ⟨m, List.mem_cons_of_mem _ hm, hp⟩
    · rintro ⟨m, hm, hp⟩
      rcases List.mem_cons.mp hm with rfl | hm
      · omega
      · have := this.mpr ⟨m, hm, hp⟩
        omega

/-- **Several interactions, cardinality `Multiple`.** The rule added for them leaves in the outcome exactly the values
given in the interactions, and changes nothing else. -/
theorem py_answers_united (st : State) (hst : GoodState st) (base : Str) (ids : List Str) (bt : BaseType) (old : List Atom)
    (hne : ids ≠ []) (hg : st.get base = .ok (.multiple (some bt) old)) (ho : st.isOutcome base = .ok true)
    (hids : ∀ id ∈ ids, ∃ as, st.get id = .ok (.multiple (some bt) as)) :
    ∃ st' as', Qti.runRule st (PyMig.fixupRule (base, ids)) = .ok (st', false) ∧
      Assigned st base (.multiple (some bt) as') st' ∧
      ∀ a, a ∈ as' ↔ ∃ id ∈ ids, ∃ as, st.get id = .ok (.multiple (some bt) as) ∧ a ∈ as := by
  obtain ⟨vs, p1, p2, p3, p4⟩ := pointwise_variables (bt := bt) ids hids
  have hty := pointwise_typed hst p1
  obtain ⟨b, bs, h1, h2, h3⟩ := multiple_unites st hst _ vs bt p1 (by
    intro v hv
    have ht := hty v hv
    obtain ⟨as, rfl⟩ := p2 v hv
    refine ⟨Or.inr rfl, Or.inr (Or.inr rfl), ?_⟩
    cases ht with
    | multiple h =>
      intro a ha
      obtain ⟨_, _, _, h⟩ := h a ha
      exact h)
  have hb : b = some bt := by
    apply h3
    cases vs with
    | nil =>
      cases ids with
      | nil => exact absurd rfl hne
      | cons => cases p4
    | cons v vs =>
      obtain ⟨as, rfl⟩ := p2 v (List.mem_cons_self ..)
      exact ⟨_, List.mem_cons_self .., by simp [Value.bt]⟩
  subst hb
  have hmem : ∀ a, a ∈ bs ↔ ∃ id ∈ ids, ∃ as, st.get id = .ok (.multiple (some bt) as) ∧ a ∈ as := by
    intro a
    rw [← p3 a, occurs_pos a bs, h2 a, sum_pos_iff]
    constructor
    · rintro ⟨n, hn, hp⟩
      obtain ⟨v, hv, rfl⟩ := List.mem_map.mp hn
      exact ⟨v, hv, (occurs_pos a _).mpr hp⟩
    · rintro ⟨v, hv, ha⟩
      exact ⟨_, List.mem_map.mpr ⟨v, hv, rfl⟩, (occurs_pos a _).mp ha⟩
  have hbty : WellTyped (.multiple (some bt) bs) := eval_typed st hst _ _ h1
  have hd : ∀ a ∈ distinct bs, ∃ b, some bt = some b ∧ HasType b a ∧ InRange a := by
    cases hbty with
    | multiple h => exact fun a ha => h a ((mem_distinct a bs).mp ha)
  have hcopy : copyInto (.multiple (some bt) old) (.multiple (some bt) bs) = .ok (.multiple (some bt) (distinct bs)) := by
    unfold copyInto
    by_cases hnull : bs = []
    · subst hnull
      simp [Value.isNull, distinct]
    · rw [if_neg (by simp [Value.isNull, hnull])]
      simp only [containerOf_same hd]
      rfl
  refine ⟨{ st with vars := Dict.set st.vars base (.multiple (some bt) (distinct bs)) }, distinct bs, ?_,
    ⟨?_, ?_, rfl⟩, fun a => by rw [mem_distinct, hmem]⟩
  · unfold PyMig.fixupRule
    have hset : st.set base (.multiple (some bt) bs) =
        .ok { st with vars := Dict.set st.vars base (.multiple (some bt) (distinct bs)) } := by
      unfold State.set
      rw [hg]
      simp only [bind, Except.bind]
      rw [if_neg (fun h => h.2 rfl)]
      simp only [pure, Except.pure]
      rw [if_neg (fun h => h.2 rfl), hcopy]
    simp only [Qti.runRule, setOutcome, h1, ho, bind, Except.bind, if_true, hset]
  · rw [get_eq]
    show Dict.get (Dict.set _ _ _) _ = _
    rw [Dict.get_set, if_pos rfl]
  · intro other ho
    unfold State.get
    dsimp only
    rw [Dict.get_set, if_neg ho]

/-- **Several interactions.** In the response processing that is built the answers are put together before any
condition is tested: with one such response of cardinality `Multiple`, the whole runs as the conditions alone do in the
session that holds the values given. -/
theorem py_answers_first (ds ds' : PyMig.Decls) (vars : List PyMig.DecVar) (ints : List (Str × Str))
    (rcs : List RespCondition) (rules : List Rule) (st : State) (hst : GoodState st) (base : Str) (ids : List Str)
    (bt : BaseType) (old : List Atom) (hne : ids ≠ []) (hg : st.get base = .ok (.multiple (some bt) old))
    (ho : st.isOutcome base = .ok true) (hids : ∀ id ∈ ids, ∃ as, st.get id = .ok (.multiple (some bt) as))
    (h : PyMig.resProcessing ds [(base, ids)] vars ints rcs = .ok (ds', rules)) :
    ∃ rest st' as', PyMig.resProcessing ds [] vars ints rcs = .ok (ds', rest) ∧ run st rules = run st' rest ∧
      Assigned st base (.multiple (some bt) as') st' ∧
      ∀ a, a ∈ as' ↔ ∃ id ∈ ids, ∃ as, st.get id = .ok (.multiple (some bt) as) ∧ a ∈ as := by
  obtain ⟨st', as', h1, h2, h3⟩ := py_answers_united st hst base ids bt old hne hg ho hids
  unfold PyMig.resProcessing at h ⊢
  obtain ⟨d1, e1, h⟩ := bind_ok h
  obtain ⟨d2, e2, h⟩ := bind_ok h
  obtain ⟨b, e3, h⟩ := bind_ok h
  cases h
  refine ⟨readRules b.rules, st', as', ?_, ?_, h2, h3⟩
  · simp only [e1, e2, e3, bind, Except.bind, List.map_nil, List.nil_append]
  · show run st (PyMig.fixupRule (base, ids) :: readRules b.rules) = _
    rw [run, run, Qti.runRules, h1]
    rfl

/-- The hypotheses are met: two blanks, and a condition on the values of both. -/
example : ∃ ds' rules, PyMig.resProcessing [("B".toList, ⟨.outcome, .multiple, .string, none, none, none, none, []⟩)]
    [("B".toList, ["B_01".toList, "B_02".toList])] [] []
    [⟨[.test (.varequal true) "B".toList none "x".toList], [.displayfeedback ['F']], true⟩] = .ok (ds', rules) :=
  ⟨_, _, rfl⟩

/-- A session with two blanks. -/
def blanksSession : State :=
  ⟨[("B".toList, .multiple (some .string) []), ("B_01".toList, .multiple (some .string) [.str ['x']]),
    ("B_02".toList, .multiple (some .string) [.str ['y']])],
   [("B".toList, ⟨.outcome, .multiple, some .string, none, none⟩)]⟩

theorem blanks_good : GoodState blanksSession := by
  intro p hp
  simp only [blanksSession, List.mem_cons, List.not_mem_nil, or_false] at hp
  rcases hp with rfl | rfl | rfl
  · exact .multiple (by simp)
  · refine .multiple ?_
    intro a ha
    simp at ha
    subst ha
    exact ⟨_, rfl, .string _ (by simp), trivial⟩
  · refine .multiple ?_
    intro a ha
    simp at ha
    subst ha
    exact ⟨_, rfl, .string _ (by simp), trivial⟩

example : ∃ st' as', Qti.runRule blanksSession (PyMig.fixupRule ("B".toList, ["B_01".toList, "B_02".toList])) =
    .ok (st', false) ∧ st'.get "B".toList = .ok (.multiple (some .string) as') ∧ Atom.str ['x'] ∈ as' ∧
    Atom.str ['y'] ∈ as' := by
  obtain ⟨st', as', h1, h2, h3⟩ := py_answers_united blanksSession blanks_good "B".toList ["B_01".toList, "B_02".toList]
    .string [] (by simp) (by decide) (by decide) (by
      intro id hid
      simp only [List.mem_cons, List.not_mem_nil, or_false] at hid
      rcases hid with rfl | rfl
      · exact ⟨[.str ['x']], by decide⟩
      · exact ⟨[.str ['y']], by decide⟩)
  exact ⟨st', as', h1, h2.1, (h3 _).mpr ⟨"B_01".toList, by simp, [.str ['x']], by decide, by simp⟩,
    (h3 _).mpr ⟨"B_02".toList, by simp, [.str ['y']], by decide, by simp⟩⟩

/-- **Refuted.** For cardinality `Ordered` response processing stops with an error before the first condition, whatever
was answered. -/
theorem py_ordered_blanks_fail (st : State) (base : Str) (ids : List Str) (bt : Option BaseType) (old : List Atom)
    (rules : List Rule) (hg : st.get base = .ok (.ordered bt old)) (ho : st.isOutcome base = .ok true) :
    ∃ e, run st (PyMig.fixupRule (base, ids) :: rules) = .error e := by
  have key : ∃ e, Qti.runRule st (PyMig.fixupRule (base, ids)) = .error e := by
    unfold PyMig.fixupRule
    rw [Qti.runRule, setOutcome]
    dsimp only
    cases hv : eval st (.node .multiple (ids.map fun id => (.leaf (.variable id) : Expr))) with
    | error e =>
      simp only [bind, Except.bind]
      exact ⟨_, rfl⟩
    | ok v =>
      have hm : ∃ b as, v = .multiple b as := by
        rw [eval_node st _ _ (by simp)] at hv
        obtain ⟨vs, _, hv⟩ := bind_ok hv
        unfold applyOp at hv
        dsimp only at hv
        obtain ⟨⟨b, as⟩, _, hv⟩ := bind_ok hv
        obtain ⟨cs, _, hv⟩ := bind_ok hv
        cases hv
        exact ⟨b, cs, rfl⟩
      obtain ⟨b, as, rfl⟩ := hm
      have hset : st.set base (.multiple b as) = .error .valueError := by
        unfold State.set
        rw [hg]
        simp only [bind, Except.bind]
        rw [if_pos ⟨by simp [Value.card], by simp [Value.card]⟩]
        rfl
      simp only [bind, Except.bind, ho, if_true, hset]
      exact ⟨_, rfl⟩
  obtain ⟨e, he⟩ := key
  refine ⟨e, ?_⟩
  rw [run, Qti.runRules, he]
  rfl

/-! ## Feedback -/

/-- **Feedback (guarded).** For legal names: running the rule for `displayfeedback` makes outcome `FEEDBACK` contain the
identifier of the feedback element with that name, and keeps what it contained. -/
theorem py_feedback_shown_partial (ds : PyMig.Decls) (st : State) (hst : GoodState st) (as : List Atom) (name : Str)
    (hg : st.get "FEEDBACK".toList = .ok (.multiple (some .identifier) as))
    (ho : st.isOutcome "FEEDBACK".toList = .ok true) (hn : PlainName name) :
    ∃ st' as', Qti.runRule st (PyMig.displayFeedback ds name).2 = .ok (st', false) ∧
      Assigned st "FEEDBACK".toList (.multiple (some .identifier) as') st' ∧
      ∀ a, a ∈ as' ↔ a ∈ as ∨ a = .str (PyMig.feedbackIdentifier name) := by
  rw [show PyMig.feedbackIdentifier name = name from legal_name_unchanged (plain_valid hn) _]
  exact feedback_step hst hg ho (plain_valid hn)

/-- The identifiers of feedback elements are those of the names, for legal names. -/
theorem py_feedback_identifier {name : Str} (hn : PlainName name) : PyMig.feedbackIdentifier name = name :=
  legal_name_unchanged (plain_valid hn) _

/-- **Refuted.** For every name that is not legal, the rule for `displayfeedback` fails, though the feedback element
itself has a legal identifier. -/
theorem py_feedback_shown_refuted (ds : PyMig.Decls) (st : State) (name : Str)
    (hn : Names.isValidNCName name = false) (hne : name ≠ []) :
    ∃ e, Qti.runRule st (PyMig.displayFeedback ds name).2 = .error e := by
  show ∃ e, Qti.runRule st (V1.displayFeedback name) = .error e
  unfold V1.displayFeedback
  rw [Qti.runRule, setOutcome]
  have : ∃ e, eval st (.node .multiple [.leaf (.variable "FEEDBACK".toList), .leaf (.baseValue .identifier name)]) = .error e := by
    have hlit : ∃ e, eval st (.leaf (.baseValue .identifier name)) = .error e := by
      rw [eval]
      simp only [evalLeaf, newSingle, fromText, hn, bind, Except.bind]
      exact ⟨_, rfl⟩
    obtain ⟨e, he⟩ := hlit
    rw [eval_node st _ _ (by simp), evalAll, evalAll, he]
    cases eval st (.leaf (.variable "FEEDBACK".toList)) with
    | error e' => exact ⟨_, rfl⟩
    | ok v => exact ⟨_, rfl⟩
  obtain ⟨e, he⟩ := this
  rw [he]
  exact ⟨_, rfl⟩

/-- Feedback `1st`. -/
example : Names.isValidNCName "1st".toList = false ∧
    PyMig.feedbackIdentifier "1st".toList = "FEEDBACK_1st".toList := by decide +kernel

/-! ### The outcome for feedback -/

theorem feedbackDecl_has (ds : PyMig.Decls) : ∃ d, Dict.get (PyMig.feedbackDecl ds) "FEEDBACK".toList = some d ∧
    (Dict.get ds "FEEDBACK".toList = none → d = { kind := .outcome, card := .multiple, bt := .identifier }) := by
  unfold PyMig.feedbackDecl
  by_cases h : Dict.has ds "FEEDBACK".toList = true
  · rw [if_pos h]
    obtain ⟨d, hd⟩ := (dict_get_has _ _).mp h
    exact ⟨d, hd, fun h => by rw [hd] at h; cases h⟩
  · rw [if_neg h]
    exact ⟨_, by rw [Dict.get_set, if_pos rfl], fun _ => rfl⟩

/-- What feedback may add to declarations: nothing, or the outcome `FEEDBACK`. -/
def FeedbackAdded (ds ds' : PyMig.Decls) : Prop :=
  ∀ k, Dict.get ds' k = Dict.get ds k ∨
    k = "FEEDBACK".toList ∧ Dict.get ds k = none ∧
      Dict.get ds' k = some { kind := .outcome, card := .multiple, bt := .identifier }

theorem feedbackAdded_trans {a b c : PyMig.Decls} (h1 : FeedbackAdded a b) (h2 : FeedbackAdded b c) : FeedbackAdded a c := by
  intro k
  rcases h2 k with e2 | ⟨e2, e3, e4⟩
  · rcases h1 k with e1 | ⟨f1, f2, f3⟩
    · exact Or.inl (e2.trans e1)
    · exact Or.inr ⟨f1, f2, e2.trans f3⟩
  · rcases h1 k with e1 | ⟨f1, f2, f3⟩
    · exact Or.inr ⟨e2, e1 ▸ e3, e4⟩
    · rw [f3] at e3
      cases e3

theorem feedbackDecl_added (ds : PyMig.Decls) : FeedbackAdded ds (PyMig.feedbackDecl ds) := by
  intro k
  unfold PyMig.feedbackDecl
  by_cases h : Dict.has ds "FEEDBACK".toList = true
  · rw [if_pos h]
    exact Or.inl rfl
  · rw [if_neg h, Dict.get_set]
    by_cases hk : k = "FEEDBACK".toList
    · subst hk
      refine Or.inr ⟨rfl, ?_, if_pos rfl⟩
      cases hg : Dict.get ds "FEEDBACK".toList with
      | none => rfl
      | some d => exact absurd ((dict_get_has _ _).mpr ⟨d, hg⟩) h
    · exact Or.inl (if_neg hk)

theorem effects_declare : ∀ (fs : List Effect) (ds ds' : PyMig.Decls) (rs : List Rule),
    PyMig.effectRules ds fs = .ok (ds', rs) → FeedbackAdded ds ds' ∧
      ((∃ l, Effect.displayfeedback l ∈ fs) → ∃ d, Dict.get ds' "FEEDBACK".toList = some d)
  | [], ds, ds', rs, h => by cases h; exact ⟨fun _ => Or.inl rfl, by simp⟩
  | f :: fs, ds, ds', rs, h => by
    rw [PyMig.effectRules] at h
    obtain ⟨p, hp, h⟩ := bind_ok h
    obtain ⟨q, hq, h⟩ := bind_ok h
    cases h
    obtain ⟨i1, i2⟩ := effects_declare fs p.1 q.1 q.2 hq
    cases f with
    | setvar n a t =>
      rw [PyMig.effectRule] at hp
      obtain ⟨r, _, hp⟩ := bind_ok hp
      cases hp
      exact ⟨i1, fun ⟨l, hl⟩ => i2 ⟨l, by simpa using hl⟩⟩
    | displayfeedback l =>
      cases hp
      refine ⟨feedbackAdded_trans (feedbackDecl_added ds) i1, fun _ => ?_⟩
      obtain ⟨d, hd, _⟩ := feedbackDecl_has ds
      rcases i1 "FEEDBACK".toList with e | ⟨_, e, _⟩
      · exact ⟨d, e.trans hd⟩
      · exact absurd (e.symm.trans hd) (by simp)

theorem conditions_declare {ds ds' : PyMig.Decls} {rcs : List RespCondition} {cs : List (Expr × List Rule × Bool)}
    (h : Converted ds rcs cs ds') :
    FeedbackAdded ds ds' ∧ (ShowsFeedback rcs → ∃ d, Dict.get ds' "FEEDBACK".toList = some d) := by
  induction h with
  | nil ds => exact ⟨fun _ => Or.inl rfl, fun ⟨_, hc, _⟩ => by simp at hc⟩
  | cons he hq _ ih =>
    obtain ⟨a1, a2⟩ := effects_declare _ _ _ _ hq
    refine ⟨feedbackAdded_trans a1 ih.1, ?_⟩
    rintro ⟨c, hc, l, hl⟩
    rcases List.mem_cons.mp hc with rfl | hc
    · obtain ⟨d, hd⟩ := a2 ⟨l, by unfold PyMig.inOrder; simp [hl, PyMig.isSetVar]⟩
      rcases ih.1 "FEEDBACK".toList with e | ⟨_, e, _⟩
      · exact ⟨d, e.trans hd⟩
      · exact absurd (e.symm.trans hd) (by simp)
    · exact ih.2 ⟨c, hc, l, hl⟩

/-- **The outcome for feedback.** Whenever response processing is built, the outcome `FEEDBACK` is declared if some
condition shows feedback; it is multiple, with identifiers, unless the item declares an outcome or response of that
name; and response conditions declare nothing else and change no declaration. -/
theorem py_feedback_outcome (ds00 ds0 ds ds' : PyMig.Decls) (fixups : List (Str × List Str)) (vars : List PyMig.DecVar)
    (ints : List (Str × Str)) (rcs : List RespCondition) (rules : List Rule)
    (hv : PyMig.decVars ds00 vars = .ok ds0) (hi : PyMig.interpretVars ds0 ints = .ok ds)
    (h : PyMig.resProcessing ds00 fixups vars ints rcs = .ok (ds', rules)) :
    FeedbackAdded ds ds' ∧ (ShowsFeedback rcs → ∃ d, Dict.get ds' "FEEDBACK".toList = some d ∧
      (Dict.get ds "FEEDBACK".toList = none → d.kind = .outcome ∧ d.card = .multiple ∧ d.bt = .identifier)) := by
  unfold PyMig.resProcessing at h
  simp only [hv, hi, bind, Except.bind] at h
  cases hb : PyMig.respConditions ⟨ds, [], true, .container 0⟩ rcs with
  | error e => rw [hb] at h; cases h
  | ok b =>
    rw [hb] at h
    cases h
    obtain ⟨cs, hc⟩ := py_converted rcs _ b hb
    obtain ⟨h1, h2⟩ := conditions_declare hc
    refine ⟨h1, fun hs => ?_⟩
    obtain ⟨d, hd⟩ := h2 hs
    refine ⟨d, hd, fun hn => ?_⟩
    rcases h1 "FEEDBACK".toList with e | ⟨_, _, e⟩
    · have hn' : Dict.get ds "FEEDBACK".toList = some d := e.symm.trans hd
      rw [hn] at hn'
      cases hn'
    · rw [hd] at e
      cases e
      exact ⟨rfl, rfl, rfl⟩

/-! ## Conditions and actions that are refused -/

/-- **Refuted.** A condition with a test for an unanswered response, a subset or a substring is not converted, and with
it the item. -/
theorem py_unsupported_refused (ds : PyMig.Decls) (r value : Str) (i : Option Int) (flag : Bool) :
    PyMig.conditionVar ds [.unanswered r] = .error .nameError ∧
    PyMig.conditionVar ds [.test .varsubset r i value] = .error .nameError ∧
    PyMig.conditionVar ds [.test (.varsubstring flag) r i value] = .error .nameError := by
  refine ⟨?_, ?_, ?_⟩ <;> simp [PyMig.conditionVar, PyMig.condExprs, PyMig.condExpr, PyMig.testExpr, bind, Except.bind]

/-- Inequalities are refused for responses that are not single numbers. -/
theorem py_inequality_refused (ds : PyMig.Decls) (t : Test) (r value : Str) (i : Option Int) (d : PyMig.Decl)
    (ht : t = .varlt ∨ t = .varlte ∨ t = .vargt ∨ t = .vargte) (hd : Dict.get ds (PyMig.ident r) = some d)
    (hk : d.card ≠ .single ∨ d.bt ≠ .integer ∧ d.bt ≠ .float) :
    PyMig.conditionVar ds [.test t r i value] = .error .nameError := by
  have e : ∀ op, PyMig.orderExpr op d (PyMig.ident r) i value = .error .nameError := by
    intro op
    unfold PyMig.orderExpr
    by_cases hc : d.card = .single
    · rw [if_pos hc, if_neg]
      rcases hk with h | h
      · exact absurd hc h
      · rintro (h' | h')
        · exact h.1 h'
        · exact h.2 h'
    · rw [if_neg hc]
  rcases ht with rfl | rfl | rfl | rfl <;>
    simp [PyMig.conditionVar, PyMig.condExprs, PyMig.condExpr, PyMig.testExpr, bind, Except.bind, hd, e]

/-- A session with an ordered response and a text. -/
def orderedSession : State :=
  ⟨[(['O'], .ordered (some .identifier) [.str ['A'], .str ['B']]), (['T'], .single (some .string) (some (.str " a".toList)))], []⟩

/-- Its declarations. -/
def orderedDecls : PyMig.Decls :=
  [(['O'], ⟨.response, .ordered, .identifier, none, none, none, none, []⟩),
   (['T'], ⟨.response, .single, .string, none, none, none, none, []⟩)]

/-- **Refuted.** The test whether the first value of an ordered response is `A` is converted to one that fails; the test
whether a text is the text given is false when the text starts with a space. -/
theorem py_condition_meaning_refuted :
    (∃ e, PyMig.conditionVar orderedDecls [.test (.varequal true) ['O'] (some 1) ['A']] = .ok e ∧
      ∃ err, eval orderedSession e = .error err) ∧
    ∃ e, PyMig.conditionVar orderedDecls [.test (.varequal true) ['T'] none " a".toList] = .ok e ∧
      eval orderedSession e = .ok (boolV (some false)) := by
  refine ⟨⟨.node .member [.leaf (.baseValue .identifier ['A']), .node (.index (some 1)) [.leaf (.variable ['O'])]],
    by rfl, .processingError, by decide +kernel⟩,
    ⟨.node (.stringMatch true false) [.leaf (.variable ['T']), .leaf (.baseValue .string "a".toList)],
      by rfl, by decide +kernel⟩⟩

/-- **Refuted.** `setvar` for an outcome that is not declared, such as the `SCORE` that every item has, stops the
migration. -/
theorem py_undeclared_outcome_refused (ds : PyMig.Decls) (n value : Str) (a : Action)
    (h : Dict.get ds (PyMig.ident n) = none) : PyMig.setVar ds n a value = .error .nameError := by
  unfold PyMig.setVar
  dsimp only
  rw [h]

/-! ## Actions -/

/-- **`setvar`, decimal outcomes.** Every action leaves in the outcome the number it computes from its previous value and
the operand, and changes nothing else. -/
theorem py_setvar_float (ds : PyMig.Decls) (st : State) (n value : Str) (d : PyMig.Decl) (old x : Rat) (action : Action)
    (hd : Dict.get ds (PyMig.ident n) = some d) (hcard : d.card = .single) (hbt : d.bt = .float)
    (ho : st.isOutcome (PyMig.ident n) = .ok true) (hold : st.get (PyMig.ident n) = .ok (floatV (some old)))
    (hx : DoubleText (Names.strip value) x) (ha : action ≠ .unknown) (hdiv : action = .divide → x ≠ 0) :
    ∃ rule st', PyMig.setVar ds n action value = .ok rule ∧ Qti.runRule st rule = .ok (st', false) ∧
      Assigned st (PyMig.ident n) (floatV (some (actionResult action old x))) st' := by
  obtain ⟨r, h1, h2⟩ := py_setVar (text := value) hd hcard ha
  have e : (outcomes ds n).1 = PyMig.ident n ∧ (outcomes ds n).2 = .float := by
    unfold outcomes
    rw [hd]
    exact ⟨rfl, hbt⟩
  rw [e.1, e.2] at h2
  obtain ⟨r', st', h3, h4, h5⟩ := setvar_float st (PyMig.ident n) old x action (Names.strip value) hold ho hx ha hdiv
  rw [h2] at h3
  cases h3
  exact ⟨r, st', h1, h4, h5⟩

/-- **`setvar`, integer outcomes (guarded).** So do the actions other than division on integers, while the result fits. -/
theorem py_setvar_integer_partial (ds : PyMig.Decls) (st : State) (n value : Str) (d : PyMig.Decl) (old i r : Int)
    (action : Action) (hd : Dict.get ds (PyMig.ident n) = some d) (hcard : d.card = .single) (hbt : d.bt = .integer)
    (ho : st.isOutcome (PyMig.ident n) = .ok true)
    (hold : st.get (PyMig.ident n) = .ok (.single (some .integer) (some (.int old))))
    (hx : IntegerText (Names.strip value) i) (ha : action ≠ .unknown) (hdiv : action ≠ .divide)
    (hr : (r : Rat) = actionResult action old i) (hf : Fits r) :
    ∃ rule st', PyMig.setVar ds n action value = .ok rule ∧ Qti.runRule st rule = .ok (st', false) ∧
      Assigned st (PyMig.ident n) (.single (some .integer) (some (.int r))) st' := by
  obtain ⟨r0, h1, h2⟩ := py_setVar (text := value) hd hcard ha
  have e : (outcomes ds n).1 = PyMig.ident n ∧ (outcomes ds n).2 = .integer := by
    unfold outcomes
    rw [hd]
    exact ⟨rfl, hbt⟩
  rw [e.1, e.2] at h2
  obtain ⟨r', st', h3, h4, h5⟩ := setvar_integer_partial st (PyMig.ident n) old i r action (Names.strip value) hold ho hx ha
    hdiv hr hf
  rw [h2] at h3
  cases h3
  exact ⟨r0, st', h1, h4, h5⟩

/-! ## Files -/

/-- A file is migrated if each of its items is, and then to the items migrated, in order. -/
theorem py_file_migrated {α β} (item : α → Except Err β) (xs : List α) (ys : List β) :
    PyMig.migrateAll item xs = .ok ys ↔ Pointwise (fun x y => item x = .ok y) xs ys := by
  constructor
  · induction xs generalizing ys with
    | nil => intro h; cases h; exact .nil
    | cons x xs ih =>
      intro h
      rw [PyMig.migrateAll] at h
      obtain ⟨y, hy, h⟩ := bind_ok h
      obtain ⟨zs, hz, h⟩ := bind_ok h
      cases h
      exact .cons hy (ih zs hz)
  · intro h
    induction h with
    | nil => rfl
    | cons h1 _ ih => rw [PyMig.migrateAll, h1, ih]; rfl

/-- **Refuted.** An item that cannot be migrated loses the whole file, whatever is before and after it. -/
theorem py_file_lost {α β} (item : α → Except Err β) (before after : List α) (x : α) (e : Err) (h : item x = .error e) :
    ∃ e', PyMig.migrateAll item (before ++ x :: after) = .error e' := by
  induction before with
  | nil => exact ⟨e, by rw [List.nil_append, PyMig.migrateAll, h]; rfl⟩
  | cons y before ih =>
    obtain ⟨e', he⟩ := ih
    rw [List.cons_append, PyMig.migrateAll, he]
    cases item y with
    | error e'' => exact ⟨e'', rfl⟩
    | ok z => exact ⟨e', rfl⟩

end Verif.Props
