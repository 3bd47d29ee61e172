import Verif.Model.CommandLine

/-!
# The command of the migration tool

C122: options mean the same wherever they are given, and everything else is an input.
C123: an existing directory is not written to without consent.
C124: every XML file below the inputs is converted once, and nothing else.
C125: a file that cannot be converted does not spoil the others.
C126: the options of a conversion do not affect later ones.
C127: the comment of a file describes the item or the package.
-/

set_option linter.unusedVariables false
set_option linter.unusedSimpArgs false

namespace Verif.Props

open Verif Verif.Py Verif.CP Verif.Cli

/-! ## C122 -/

/-- The options, as listed by `--help` (with `-x`, which is what the code looks for instead of `--x`); the letters may
be in either case. -/
def optionWords : List Str :=
  ["-x".toList, "--ucvars".toList, "--qmdextensions".toList, "--forcefibfloat".toList, "--nocomment".toList,
   "--help".toList, "--version".toList, "--nogui".toList]

/-- The options that have a value. -/
def optionPrefixes : List Str := ["--cpout=".toList, "--lang=".toList, "--dtdloc=".toList]

/-- The argument is an option. -/
def IsOption (a : Str) : Prop := lower a ∈ optionWords ∨ ∃ p ∈ optionPrefixes, p <+: lower a

/-- The option is given. -/
def Given (word : String) (args : List Str) : Prop := ∃ a ∈ args, lower a = word.toList

/-- `v` is the value of the option `word` that is given last, `none` if it is not given. -/
def LastValue (word : String) (args : List Str) (v : Option Str) : Prop :=
  (v = none ∧ ∀ a ∈ args, ¬ word.toList <+: lower a) ∨
  (∃ before a after, args = before ++ a :: after ∧ word.toList <+: lower a ∧
    (∀ b ∈ after, ¬ word.toList <+: lower b) ∧ v = some (a.drop word.length))

theorem starts_iff (x w : Str) : starts x w = true ↔ w <+: lower x := by
  unfold starts
  rw [decide_eq_true_iff]
  constructor
  · intro h
    rw [← h]
    unfold lower
    rw [List.map_take]
    exact List.take_prefix _ _
  · intro h
    unfold lower at *
    rw [List.map_take]
    exact (List.prefix_iff_eq_take.mp h).symm

theorem isWord_iff (x : Str) (w : String) : isWord x w = true ↔ lower x = w.toList := by
  unfold isWord; exact decide_eq_true_iff

/-- What one argument does, for arguments other than `--version`. -/
def oneArg (env : Env) (x : Str) (st : St) : St :=
  if starts x "--cpout=".toList then cpout env st (x.drop 8)
  else if isWord x "-x" then { st with opts := { st.opts with x := true } }
  else if isWord x "--ucvars" then { st with opts := { st.opts with ucVars := true } }
  else if isWord x "--qmdextensions" then { st with opts := { st.opts with qmdExtensions := true } }
  else if isWord x "--forcefibfloat" then { st with opts := { st.opts with forceFloat := true } }
  else if starts x "--lang=".toList then { st with opts := { st.opts with lang := x.drop 7 } }
  else if isWord x "--nocomment" then st
  else if starts x "--dtdloc=".toList then { st with opts := { st.opts with dtdDir := env.abspath (x.drop 9) } }
  else if isWord x "--help" then { st with noGui := true }
  else if isWord x "--nogui" then { st with noGui := true }
  else { st with fileNames := st.fileNames ++ [x] }

/-- `lower x` decides which argument it is: two different words cannot both fit. -/
theorem starts_not_word {x : Str} {p w : Str} (h : lower x = w) (hp : ¬ p <+: w) : starts x p = false := by
  cases e : starts x p with
  | false => rfl
  | true => rw [starts_iff, h] at e; exact absurd e hp

theorem readArgs_version (env : Env) (x : Str) (xs : List Str) (st : St) (h : lower x = "--version".toList) :
    readArgs env (x :: xs) st = { st with noGui := true, fileNames := [] } := by
  rw [readArgs]
  have s1 := starts_not_word (p := "--cpout=".toList) h (by decide)
  have s2 := starts_not_word (p := "--lang=".toList) h (by decide)
  have s3 := starts_not_word (p := "--dtdloc=".toList) h (by decide)
  simp only [s1, s2, s3, isWord, h]
  rfl

theorem readArgs_cons (env : Env) (x : Str) (xs : List Str) (st : St) (h : lower x ≠ "--version".toList) :
    readArgs env (x :: xs) st = readArgs env xs (oneArg env x st) := by
  rw [readArgs]
  have hv : isWord x "--version" = false := by
    cases e : isWord x "--version" with
    | false => rfl
    | true => exact absurd ((isWord_iff _ _).mp e) h
  unfold oneArg noCmment
  simp only [hv, apply_ite (readArgs env xs), Bool.false_eq_true, if_false]

theorem readArgs_foldl (env : Env) (args : List Str) : ∀ st, (∀ a ∈ args, lower a ≠ "--version".toList) →
    readArgs env args st = args.foldl (fun st x => oneArg env x st) st := by
  induction args with
  | nil => intro st _; rfl
  | cons a as ih =>
    intro st h
    rw [readArgs_cons env a as st (h a List.mem_cons_self), ih _ (fun b hb => h b (List.mem_cons_of_mem _ hb))]
    rfl

theorem cpout_rest (env : Env) (st : St) (v : Str) :
    (cpout env st v).fileNames = st.fileNames ∧ (cpout env st v).noGui = st.noGui ∧
    (cpout env st v).opts = { st.opts with cpPath := (cpout env st v).opts.cpPath } := by
  unfold cpout
  simp only
  split <;> exact ⟨rfl, rfl, rfl⟩

/-- The state after one argument, according to which kind of argument it is. -/
theorem oneArg_cases (env : Env) (x : Str) (st : St) :
    ("--cpout=".toList <+: lower x ∧ oneArg env x st = cpout env st (x.drop 8)) ∨
    (lower x = "-x".toList ∧ oneArg env x st = { st with opts := { st.opts with x := true } }) ∨
    (lower x = "--ucvars".toList ∧ oneArg env x st = { st with opts := { st.opts with ucVars := true } }) ∨
    (lower x = "--qmdextensions".toList ∧
      oneArg env x st = { st with opts := { st.opts with qmdExtensions := true } }) ∨
    (lower x = "--forcefibfloat".toList ∧ oneArg env x st = { st with opts := { st.opts with forceFloat := true } }) ∨
    ("--lang=".toList <+: lower x ∧ oneArg env x st = { st with opts := { st.opts with lang := x.drop 7 } }) ∨
    (lower x = "--nocomment".toList ∧ oneArg env x st = st) ∨
    ("--dtdloc=".toList <+: lower x ∧
      oneArg env x st = { st with opts := { st.opts with dtdDir := env.abspath (x.drop 9) } }) ∨
    (lower x = "--help".toList ∧ oneArg env x st = { st with noGui := true }) ∨
    (lower x = "--nogui".toList ∧ oneArg env x st = { st with noGui := true }) ∨
    ((lower x = "--version".toList ∨ ¬ IsOption x) ∧
      oneArg env x st = { st with fileNames := st.fileNames ++ [x] }) := by
  unfold oneArg
  by_cases h1 : starts x "--cpout=".toList = true
  · rw [if_pos h1]; exact .inl ⟨(starts_iff _ _).mp h1, rfl⟩
  rw [if_neg h1]; refine .inr ?_
  by_cases h2 : isWord x "-x" = true
  · rw [if_pos h2]; exact .inl ⟨(isWord_iff _ _).mp h2, rfl⟩
  rw [if_neg h2]; refine .inr ?_
  by_cases h3 : isWord x "--ucvars" = true
  · rw [if_pos h3]; exact .inl ⟨(isWord_iff _ _).mp h3, rfl⟩
  rw [if_neg h3]; refine .inr ?_
  by_cases h4 : isWord x "--qmdextensions" = true
  · rw [if_pos h4]; exact .inl ⟨(isWord_iff _ _).mp h4, rfl⟩
  rw [if_neg h4]; refine .inr ?_
  by_cases h5 : isWord x "--forcefibfloat" = true
  · rw [if_pos h5]; exact .inl ⟨(isWord_iff _ _).mp h5, rfl⟩
  rw [if_neg h5]; refine .inr ?_
  by_cases h6 : starts x "--lang=".toList = true
  · rw [if_pos h6]; exact .inl ⟨(starts_iff _ _).mp h6, rfl⟩
  rw [if_neg h6]; refine .inr ?_
  by_cases h7 : isWord x "--nocomment" = true
  · rw [if_pos h7]; exact .inl ⟨(isWord_iff _ _).mp h7, rfl⟩
  rw [if_neg h7]; refine .inr ?_
  by_cases h8 : starts x "--dtdloc=".toList = true
  · rw [if_pos h8]; exact .inl ⟨(starts_iff _ _).mp h8, rfl⟩
  rw [if_neg h8]; refine .inr ?_
  by_cases h9 : isWord x "--help" = true
  · rw [if_pos h9]; exact .inl ⟨(isWord_iff _ _).mp h9, rfl⟩
  rw [if_neg h9]; refine .inr ?_
  by_cases h10 : isWord x "--nogui" = true
  · rw [if_pos h10]; exact .inl ⟨(isWord_iff _ _).mp h10, rfl⟩
  rw [if_neg h10]; refine .inr ⟨?_, rfl⟩
  by_cases hv : lower x = "--version".toList
  · exact .inl hv
  refine .inr ?_
  rw [starts_iff] at h1 h6 h8
  rw [isWord_iff] at h2 h3 h4 h5 h7 h9 h10
  rintro (h | ⟨p, hp, h⟩)
  · unfold optionWords at h
    simp only [List.mem_cons, List.not_mem_nil, or_false] at h
    rcases h with h | h | h | h | h | h | h | h
    · exact h2 h
    · exact h3 h
    · exact h4 h
    · exact h5 h
    · exact h7 h
    · exact h9 h
    · exact hv h
    · exact h10 h
  · unfold optionPrefixes at hp
    simp only [List.mem_cons, List.not_mem_nil, or_false] at hp
    rcases hp with rfl | rfl | rfl
    · exact h1 h
    · exact h6 h
    · exact h8 h

/-- A text begins with at most one of two words neither of which begins with the other. -/
theorem prefix_clash {p q s : Str} (h1 : p <+: s) (h2 : q <+: s) (h : ¬ p <+: q) (h' : ¬ q <+: p) : False := by
  rcases Nat.le_total p.length q.length with hl | hl
  · exact h (List.prefix_of_prefix_length_le h1 h2 hl)
  · exact h' (List.prefix_of_prefix_length_le h2 h1 hl)

theorem one_files (env : Env) (x : Str) (st : St) (hv : lower x ≠ "--version".toList) :
    (IsOption x → (oneArg env x st).fileNames = st.fileNames) ∧
    (¬ IsOption x → (oneArg env x st).fileNames = st.fileNames ++ [x]) := by
  have word : ∀ w : Str, w ∈ optionWords → lower x = w → IsOption x := fun w hw h => .inl (h ▸ hw)
  have pre : ∀ w : Str, w ∈ optionPrefixes → w <+: lower x → IsOption x := fun w hw h => .inr ⟨w, hw, h⟩
  rcases oneArg_cases env x st with ⟨h, e⟩ | ⟨h, e⟩ | ⟨h, e⟩ | ⟨h, e⟩ | ⟨h, e⟩ | ⟨h, e⟩ | ⟨h, e⟩ | ⟨h, e⟩ | ⟨h, e⟩ |
    ⟨h, e⟩ | ⟨h, e⟩
  · rw [e]; exact ⟨fun _ => (cpout_rest env st _).1, fun hn => absurd (pre _ (by decide) h) hn⟩
  · rw [e]; exact ⟨fun _ => rfl, fun hn => absurd (word _ (by decide) h) hn⟩
  · rw [e]; exact ⟨fun _ => rfl, fun hn => absurd (word _ (by decide) h) hn⟩
  · rw [e]; exact ⟨fun _ => rfl, fun hn => absurd (word _ (by decide) h) hn⟩
  · rw [e]; exact ⟨fun _ => rfl, fun hn => absurd (word _ (by decide) h) hn⟩
  · rw [e]; exact ⟨fun _ => rfl, fun hn => absurd (pre _ (by decide) h) hn⟩
  · rw [e]; exact ⟨fun _ => rfl, fun hn => absurd (word _ (by decide) h) hn⟩
  · rw [e]; exact ⟨fun _ => rfl, fun hn => absurd (pre _ (by decide) h) hn⟩
  · rw [e]; exact ⟨fun _ => rfl, fun hn => absurd (word _ (by decide) h) hn⟩
  · rw [e]; exact ⟨fun _ => rfl, fun hn => absurd (word _ (by decide) h) hn⟩
  · rcases h with h | h
    · exact absurd h hv
    · rw [e]; exact ⟨fun ho => absurd ho h, fun _ => rfl⟩

/-- What the other attributes are after one argument. -/
theorem one_flags (env : Env) (x : Str) (st : St) :
    (oneArg env x st).opts.ucVars = (st.opts.ucVars || decide (lower x = "--ucvars".toList)) ∧
    (oneArg env x st).opts.qmdExtensions =
      (st.opts.qmdExtensions || decide (lower x = "--qmdextensions".toList)) ∧
    (oneArg env x st).opts.forceFloat = (st.opts.forceFloat || decide (lower x = "--forcefibfloat".toList)) ∧
    (oneArg env x st).opts.x = (st.opts.x || decide (lower x = "-x".toList)) ∧
    (oneArg env x st).noGui =
      (st.noGui || decide (lower x = "--help".toList ∨ lower x = "--nogui".toList)) ∧
    (oneArg env x st).opts.noComment = st.opts.noComment ∧
    (oneArg env x st).opts.lang = (if "--lang=".toList <+: lower x then x.drop 7 else st.opts.lang) ∧
    (oneArg env x st).opts.dtdDir =
      (if "--dtdloc=".toList <+: lower x then env.abspath (x.drop 9) else st.opts.dtdDir) := by
  have no : ∀ p w : Str, p <+: lower x → ¬ p <+: w → lower x ≠ w := fun p w h hn he => hn (he ▸ h)
  have clash := fun (p q : Str) (h1 : p <+: lower x) (h : ¬ p <+: q) (h' : ¬ q <+: p) (h2 : q <+: lower x) =>
    prefix_clash h1 h2 h h'
  rcases oneArg_cases env x st with ⟨h, e⟩ | ⟨h, e⟩ | ⟨h, e⟩ | ⟨h, e⟩ | ⟨h, e⟩ | ⟨h, e⟩ | ⟨h, e⟩ | ⟨h, e⟩ | ⟨h, e⟩ |
    ⟨h, e⟩ | ⟨h, e⟩
  · have a1 := no _ "--ucvars".toList h (by decide)
    have a2 := no _ "--qmdextensions".toList h (by decide)
    have a3 := no _ "--forcefibfloat".toList h (by decide)
    have a4 := no _ "-x".toList h (by decide)
    have a5 := no _ "--help".toList h (by decide)
    have a6 := no _ "--nogui".toList h (by decide)
    have b1 := clash _ "--lang=".toList h (by decide) (by decide)
    have b2 := clash _ "--dtdloc=".toList h (by decide) (by decide)
    obtain ⟨c1, c2, c3⟩ := cpout_rest env st (x.drop 8)
    rw [e, c3, c2]
    simp only [a1, a2, a3, a4, a5, a6, or_self, decide_false, Bool.or_false, if_neg b1, if_neg b2, and_self]
  · rw [e, h]; exact ⟨(Bool.or_false _).symm, (Bool.or_false _).symm, (Bool.or_false _).symm, (Bool.or_true _).symm, (Bool.or_false _).symm, rfl, rfl, rfl⟩
  · rw [e, h]; exact ⟨(Bool.or_true _).symm, (Bool.or_false _).symm, (Bool.or_false _).symm, (Bool.or_false _).symm, (Bool.or_false _).symm, rfl, rfl, rfl⟩
  · rw [e, h]; exact ⟨(Bool.or_false _).symm, (Bool.or_true _).symm, (Bool.or_false _).symm, (Bool.or_false _).symm, (Bool.or_false _).symm, rfl, rfl, rfl⟩
  · rw [e, h]; exact ⟨(Bool.or_false _).symm, (Bool.or_false _).symm, (Bool.or_true _).symm, (Bool.or_false _).symm, (Bool.or_false _).symm, rfl, rfl, rfl⟩
  · have a1 := no _ "--ucvars".toList h (by decide)
    have a2 := no _ "--qmdextensions".toList h (by decide)
    have a3 := no _ "--forcefibfloat".toList h (by decide)
    have a4 := no _ "-x".toList h (by decide)
    have a5 := no _ "--help".toList h (by decide)
    have a6 := no _ "--nogui".toList h (by decide)
    have b2 := clash _ "--dtdloc=".toList h (by decide) (by decide)
    rw [e]
    simp only [a1, a2, a3, a4, a5, a6, or_self, decide_false, Bool.or_false, if_pos h, if_neg b2, and_self]
  · rw [e, h]; exact ⟨(Bool.or_false _).symm, (Bool.or_false _).symm, (Bool.or_false _).symm, (Bool.or_false _).symm, (Bool.or_false _).symm, rfl, rfl, rfl⟩
  · have a1 := no _ "--ucvars".toList h (by decide)
    have a2 := no _ "--qmdextensions".toList h (by decide)
    have a3 := no _ "--forcefibfloat".toList h (by decide)
    have a4 := no _ "-x".toList h (by decide)
    have a5 := no _ "--help".toList h (by decide)
    have a6 := no _ "--nogui".toList h (by decide)
    have b2 := clash _ "--lang=".toList h (by decide) (by decide)
    rw [e]
    simp only [a1, a2, a3, a4, a5, a6, or_self, decide_false, Bool.or_false, if_pos h, if_neg b2, and_self]
  · rw [e, h]; exact ⟨(Bool.or_false _).symm, (Bool.or_false _).symm, (Bool.or_false _).symm, (Bool.or_false _).symm, (Bool.or_true _).symm, rfl, rfl, rfl⟩
  · rw [e, h]; exact ⟨(Bool.or_false _).symm, (Bool.or_false _).symm, (Bool.or_false _).symm, (Bool.or_false _).symm, (Bool.or_true _).symm, rfl, rfl, rfl⟩
  · rcases h with h | h
    · rw [e, h]; exact ⟨(Bool.or_false _).symm, (Bool.or_false _).symm, (Bool.or_false _).symm, (Bool.or_false _).symm, (Bool.or_false _).symm, rfl, rfl, rfl⟩
    · have word : ∀ w : Str, w ∈ optionWords → lower x ≠ w := fun w hw e => h (.inl (e ▸ hw))
      have pre : ∀ w : Str, w ∈ optionPrefixes → ¬ w <+: lower x := fun w hw e => h (.inr ⟨w, hw, e⟩)
      have a1 := word "--ucvars".toList (by decide)
      have a2 := word "--qmdextensions".toList (by decide)
      have a3 := word "--forcefibfloat".toList (by decide)
      have a4 := word "-x".toList (by decide)
      have a5 := word "--help".toList (by decide)
      have a6 := word "--nogui".toList (by decide)
      have b1 := pre "--lang=".toList (by decide)
      have b2 := pre "--dtdloc=".toList (by decide)
      rw [e]
      simp only [a1, a2, a3, a4, a5, a6, or_self, decide_false, Bool.or_false, if_neg b1, if_neg b2, and_self]

instance (a : Str) : Decidable (IsOption a) := by unfold IsOption; infer_instance

theorem fold_flag {S A : Type} (f : S → Bool) (P : A → Bool) (step : S → A → S)
    (h : ∀ st x, f (step st x) = (f st || P x)) (args : List A) : ∀ st, f (args.foldl step st) = (f st || args.any P) := by
  induction args with
  | nil => intro st; simp
  | cons a as ih => intro st; rw [List.foldl_cons, ih, h, List.any_cons, Bool.or_assoc]

theorem fold_last {S V : Type} (g : S → V) (word : String) (v : Str → V) (step : S → Str → S)
    (h : ∀ st x, g (step st x) = if word.toList <+: lower x then v (x.drop word.length) else g st) (args : List Str) :
    ∀ st, ∃ o, LastValue word args o ∧ g (args.foldl step st) = (o.map v).getD (g st) := by
  induction args with
  | nil => intro st; exact ⟨none, .inl ⟨rfl, by simp⟩, rfl⟩
  | cons a as ih =>
    intro st
    obtain ⟨o, ho, e⟩ := ih (step st a)
    rw [List.foldl_cons, e, h]
    rcases ho with ⟨rfl, hn⟩ | ⟨before, b, after, rfl, hb, hl, rfl⟩
    · by_cases ha : word.toList <+: lower a
      · exact ⟨some (a.drop word.length), .inr ⟨[], a, as, rfl, ha, hn, rfl⟩, by simp [ha]⟩
      · refine ⟨none, .inl ⟨rfl, ?_⟩, by simp [ha]⟩
        intro b hb
        rcases List.mem_cons.mp hb with rfl | hb
        · exact ha
        · exact hn b hb
    · exact ⟨_, .inr ⟨a :: before, b, after, rfl, hb, hl, rfl⟩, rfl⟩

theorem not_version {args : List Str} (h : ¬ Given "--version" args) : ∀ a ∈ args, lower a ≠ "--version".toList :=
  fun a ha e => h ⟨a, ha, e⟩

theorem any_given (word : String) (args : List Str) :
    args.any (fun a => decide (lower a = word.toList)) = true ↔ Given word args := by
  simp [Given, List.any_eq_true]

/-- C122, without `--version`: the inputs are the arguments that are not options, in their order; an option is in
effect exactly if it is given, wherever and however often; of the options with a value the last one counts.  What is
missing: `--version`, which is in `version_partial`, and `--nocomment`, which has no effect (`nocomment_refuted`). -/
theorem options_partial (env : Env) (args : List Str) (h : ¬ Given "--version" args) :
    (arguments env args).fileNames = args.filter (fun a => ¬ IsOption a) ∧
    ((arguments env args).opts.ucVars = true ↔ Given "--ucvars" args) ∧
    ((arguments env args).opts.qmdExtensions = true ↔ Given "--qmdextensions" args) ∧
    ((arguments env args).opts.forceFloat = true ↔ Given "--forcefibfloat" args) ∧
    ((arguments env args).opts.x = true ↔ Given "-x" args) ∧
    ((arguments env args).noGui = true ↔ Given "--help" args ∨ Given "--nogui" args) ∧
    (∃ v, LastValue "--lang=" args v ∧ (arguments env args).opts.lang = v.getD []) ∧
    (∃ v, LastValue "--dtdloc=" args v ∧ (arguments env args).opts.dtdDir = (v.map env.abspath).getD []) := by
  unfold arguments
  rw [readArgs_foldl env args {} (not_version h)]
  refine ⟨?_, ?_, ?_, ?_, ?_, ?_, ?_, ?_⟩
  · have hv := not_version h
    suffices ∀ st : St, (args.foldl (fun st x => oneArg env x st) st).fileNames =
        st.fileNames ++ args.filter (fun a => ¬ IsOption a) by simpa using this {}
    clear h
    induction args with
    | nil => intro st; simp
    | cons a as ih =>
      intro st
      rw [List.foldl_cons, ih (fun b hb => hv b (List.mem_cons_of_mem _ hb))]
      have h1 := one_files env a st (hv a List.mem_cons_self)
      by_cases ha : IsOption a
      · rw [h1.1 ha, List.filter_cons_of_neg (by simpa using ha)]
      · rw [h1.2 ha, List.filter_cons_of_pos (by simpa using ha), List.append_assoc]; rfl
  · rw [fold_flag (fun st : St => st.opts.ucVars) _ _ (fun st x => (one_flags env x st).1)]
    exact any_given "--ucvars" args
  · rw [fold_flag (fun st : St => st.opts.qmdExtensions) _ _ (fun st x => (one_flags env x st).2.1)]
    exact any_given "--qmdextensions" args
  · rw [fold_flag (fun st : St => st.opts.forceFloat) _ _ (fun st x => (one_flags env x st).2.2.1)]
    exact any_given "--forcefibfloat" args
  · rw [fold_flag (fun st : St => st.opts.x) _ _ (fun st x => (one_flags env x st).2.2.2.1)]
    exact any_given "-x" args
  · rw [fold_flag (fun st : St => st.noGui) _ _ (fun st x => (one_flags env x st).2.2.2.2.1)]
    show (false || args.any _) = true ↔ _
    rw [Bool.false_or, ← any_given, ← any_given, List.any_eq_true, List.any_eq_true, List.any_eq_true]
    constructor
    · rintro ⟨a, ha, e⟩
      rcases of_decide_eq_true e with e | e
      · exact .inl ⟨a, ha, decide_eq_true e⟩
      · exact .inr ⟨a, ha, decide_eq_true e⟩
    · rintro (⟨a, ha, e⟩ | ⟨a, ha, e⟩)
      · exact ⟨a, ha, decide_eq_true (.inl (of_decide_eq_true e))⟩
      · exact ⟨a, ha, decide_eq_true (.inr (of_decide_eq_true e))⟩
  · obtain ⟨o, h1, h2⟩ := fold_last (fun st : St => st.opts.lang) "--lang=" id (fun st x => oneArg env x st)
      (fun st x => (one_flags env x st).2.2.2.2.2.2.1) args {}
    refine ⟨o, h1, h2.trans ?_⟩
    rw [Option.map_id]; rfl
  · exact fold_last (fun st : St => st.opts.dtdDir) "--dtdloc=" env.abspath (fun st x => oneArg env x st)
      (fun st x => (one_flags env x st).2.2.2.2.2.2.2) args {}

/-- C122: with `--version` there are no inputs, the options given before it are in effect, and nothing after it is
looked at. -/
theorem version_partial (env : Env) (before after : List Str) (v : Str) (hv : lower v = "--version".toList)
    (h : ¬ Given "--version" before) :
    arguments env (before ++ v :: after) = { arguments env before with fileNames := [], noGui := true } := by
  unfold arguments
  rw [readArgs_foldl env before {} (not_version h)]
  generalize ({} : St) = st
  induction before generalizing st with
  | nil => rw [List.nil_append, readArgs_version env v after st hv]; rfl
  | cons b bs ih =>
    have hb := not_version h
    rw [List.cons_append, readArgs_cons env b _ st (hb b List.mem_cons_self), ih]
    · rfl
    · rintro ⟨a, ha, e⟩; exact hb a (List.mem_cons_of_mem _ ha) e

/-- C122 fails for `--nocomment`: no arguments suppress the comments. -/
theorem nocomment_refuted (env : Env) (args : List Str) : (arguments env args).opts.noComment = false := by
  unfold arguments
  suffices ∀ st, (readArgs env args st).opts.noComment = st.opts.noComment from this {}
  induction args with
  | nil => intro st; rfl
  | cons a as ih =>
    intro st
    by_cases hv : lower a = "--version".toList
    · rw [readArgs_version env a as st hv]
    · rw [readArgs_cons env a as st hv, ih, (one_flags env a st).2.2.2.2.2.1]

/-- C122 fails for `--x`, which is what `--help` tells to use: it is taken for an input. -/
theorem experimental_refuted (env : Env) :
    (arguments env ["--x".toList]).opts.x = false ∧ (arguments env ["--x".toList]).fileNames = ["--x".toList] :=
  ⟨rfl, rfl⟩

/-- C122 fails for `--version`, which should only display the version: a package is written if an output directory is
given before it. -/
theorem version_refuted (env : Env) {D W : Type} (parse : Str → D → W → Except Err W)
    (dump : Str → W → Except Err W) (cwd : Str) (w : W) (hn : env.found (env.abspath "out".toList) = .nothing)
    (hp : env.abspath "out".toList ≠ []) :
    let st := arguments env ["--cpout=out".toList, "--version".toList]
    batch parse dump cwd st.opts [] w = dump (env.abspath "out".toList) w := by
  have e : arguments env ["--cpout=out".toList, "--version".toList] =
      { cpout env {} "out".toList with noGui := true, fileNames := [] } := rfl
  simp only [e]
  unfold cpout
  simp only [hn]
  unfold batch
  rw [processFiles]
  simp only [bind, Except.bind, if_pos hp]

/-- A file system in which `/out` is a directory and nothing else exists; every question is answered by `no`. -/
def emptyEnv : Env :=
  { abspath := fun p => '/' :: p
    found := fun p => if p = "/out".toList then .directory else .nothing
    reply := fun _ => "no".toList }

/-- Arguments in mixed order, with repeated options and letters of either case, and what becomes of them. -/
theorem options_hypotheses :
    (¬ Given "--version" ["a.xml".toList, "--LANG=en".toList, "--ucVars".toList, "-b".toList, "--lang=DE".toList]) ∧
    arguments emptyEnv ["a.xml".toList, "--LANG=en".toList, "--ucVars".toList, "-b".toList, "--lang=DE".toList] =
      { opts := { lang := "DE".toList, ucVars := true }, fileNames := ["a.xml".toList, "-b".toList] } ∧
    (emptyEnv.found (emptyEnv.abspath "new".toList) = .nothing ∧ emptyEnv.abspath "new".toList ≠ []) := by
  refine ⟨?_, by decide +kernel, by decide +kernel⟩
  rintro ⟨a, ha, e⟩
  simp only [List.mem_cons, List.not_mem_nil, or_false] at ha
  rcases ha with rfl | rfl | rfl | rfl | rfl <;> exact absurd e (by decide)

/-! ## C123 -/

theorem one_cpPath (env : Env) (x : Str) (st : St) :
    (¬ "--cpout=".toList <+: lower x → (oneArg env x st).opts.cpPath = st.opts.cpPath ∧
      (oneArg env x st).asked = st.asked) ∧
    ("--cpout=".toList <+: lower x → oneArg env x st = cpout env st (x.drop 8)) := by
  have no : ∀ p w : Str, p <+: lower x → ¬ p <+: w → lower x ≠ w := fun p w h hn he => hn (he ▸ h)
  have word : ∀ w : Str, lower x = w → ¬ "--cpout=".toList <+: w → ¬ "--cpout=".toList <+: lower x :=
    fun w e h => e ▸ h
  rcases oneArg_cases env x st with ⟨h, e⟩ | ⟨h, e⟩ | ⟨h, e⟩ | ⟨h, e⟩ | ⟨h, e⟩ | ⟨h, e⟩ | ⟨h, e⟩ | ⟨h, e⟩ | ⟨h, e⟩ |
    ⟨h, e⟩ | ⟨h, e⟩
  · exact ⟨fun hn => absurd h hn, fun _ => e⟩
  · rw [e]; exact ⟨fun _ => ⟨rfl, rfl⟩, fun hc => absurd hc (word _ h (by decide))⟩
  · rw [e]; exact ⟨fun _ => ⟨rfl, rfl⟩, fun hc => absurd hc (word _ h (by decide))⟩
  · rw [e]; exact ⟨fun _ => ⟨rfl, rfl⟩, fun hc => absurd hc (word _ h (by decide))⟩
  · rw [e]; exact ⟨fun _ => ⟨rfl, rfl⟩, fun hc => absurd hc (word _ h (by decide))⟩
  · rw [e]; exact ⟨fun _ => ⟨rfl, rfl⟩, fun hc => (prefix_clash hc h (by decide) (by decide)).elim⟩
  · rw [e]; exact ⟨fun _ => ⟨rfl, rfl⟩, fun hc => absurd hc (word _ h (by decide))⟩
  · rw [e]; exact ⟨fun _ => ⟨rfl, rfl⟩, fun hc => (prefix_clash hc h (by decide) (by decide)).elim⟩
  · rw [e]; exact ⟨fun _ => ⟨rfl, rfl⟩, fun hc => absurd hc (word _ h (by decide))⟩
  · rw [e]; exact ⟨fun _ => ⟨rfl, rfl⟩, fun hc => absurd hc (word _ h (by decide))⟩
  · rw [e]
    refine ⟨fun _ => ⟨rfl, rfl⟩, fun hc => ?_⟩
    rcases h with h | h
    · exact absurd hc (word _ h (by decide))
    · exact absurd (.inr ⟨_, by decide, hc⟩) h

/-- The output directory that a value of `--cpout=` stands for, where `asked` are the questions put until then. -/
def OutputFor (env : Env) (value : Str) (asked : List (Str × Str)) (path : Str) : Prop :=
  match env.found (env.abspath value) with
  | .nothing => path = env.abspath value
  | .other => path = []
  | .directory => ∃ reply, asked.getLast? = some (env.abspath value, reply) ∧
      path = if lower reply = "yes".toList then env.abspath value else []

/-- Questions are put about existing directories only. -/
def AskedOk (env : Env) (asked : List (Str × Str)) : Prop := ∀ q ∈ asked, env.found q.1 = .directory

theorem output_fold (env : Env) (args : List Str) : ∀ st : St, AskedOk env st.asked →
    let r := args.foldl (fun st x => oneArg env x st) st
    AskedOk env r.asked ∧ ∃ v, LastValue "--cpout=" args v ∧ match v with
      | none => r.opts.cpPath = st.opts.cpPath
      | some v => OutputFor env v r.asked r.opts.cpPath := by
  have key : ∀ (args : List Str) (st : St), (∀ a ∈ args, ¬ "--cpout=".toList <+: lower a) →
      (args.foldl (fun st x => oneArg env x st) st).opts.cpPath = st.opts.cpPath ∧
      (args.foldl (fun st x => oneArg env x st) st).asked = st.asked := by
    intro args
    induction args with
    | nil => intro st _; exact ⟨rfl, rfl⟩
    | cons a as ih =>
      intro st h
      obtain ⟨h1, h2⟩ := ih (oneArg env a st) (fun b hb => h b (List.mem_cons_of_mem _ hb))
      obtain ⟨h3, h4⟩ := (one_cpPath env a st).1 (h a List.mem_cons_self)
      rw [List.foldl_cons]
      exact ⟨h1.trans h3, h2.trans h4⟩
  induction args with
  | nil => intro st h; exact ⟨h, none, .inl ⟨rfl, by simp⟩, rfl⟩
  | cons a as ih =>
    intro st h
    rw [List.foldl_cons]
    have hstep : AskedOk env (oneArg env a st).asked ∧ ("--cpout=".toList <+: lower a →
        OutputFor env (a.drop 8) (oneArg env a st).asked (oneArg env a st).opts.cpPath) := by
      obtain ⟨h1, h2⟩ := one_cpPath env a st
      by_cases hc : "--cpout=".toList <+: lower a
      · rw [h2 hc]
        unfold cpout OutputFor
        simp only
        cases hf : env.found (env.abspath (a.drop 8)) with
        | nothing => exact ⟨h, fun _ => rfl⟩
        | other => exact ⟨h, fun _ => rfl⟩
        | directory =>
          refine ⟨?_, fun _ => ⟨env.reply st.asked.length, by simp, ?_⟩⟩
          · intro q hq
            rcases List.mem_append.mp hq with hq | hq
            · exact h q hq
            · rw [List.mem_singleton.mp hq]; exact hf
          · simp only; split <;> simp_all
      · rw [(h1 hc).2]
        exact ⟨h, fun hc' => absurd hc' hc⟩
    obtain ⟨hk, v, hv, hm⟩ := ih (oneArg env a st) hstep.1
    refine ⟨hk, ?_⟩
    rcases hv with ⟨rfl, hn⟩ | ⟨before, b, after, rfl, hb, hl, rfl⟩
    · obtain ⟨k1, k2⟩ := key as (oneArg env a st) hn
      by_cases hc : "--cpout=".toList <+: lower a
      · refine ⟨some (a.drop 8), .inr ⟨[], a, as, rfl, hc, hn, rfl⟩, ?_⟩
        simp only
        rw [k1, k2]
        exact hstep.2 hc
      · refine ⟨none, .inl ⟨rfl, ?_⟩, ?_⟩
        · intro b hb
          rcases List.mem_cons.mp hb with rfl | hb
          · exact hc
          · exact hn b hb
        · simp only
          rw [k1, ((one_cpPath env a st).1 hc).1]
    · exact ⟨_, .inr ⟨a :: before, b, after, rfl, hb, hl, rfl⟩, hm⟩

/-- C123: the output directory is the one given last by `--cpout=`; it is not used if it is not a directory, and if it
is a directory that exists then it is used only if the question about it was answered by yes.  (Stated for arguments
without `--version`; `version_partial` says what happens with it.) -/
theorem output_exact (env : Env) (args : List Str) (h : ¬ Given "--version" args) :
    let r := arguments env args
    (∀ q ∈ r.asked, env.found q.1 = .directory) ∧
    ∃ v, LastValue "--cpout=" args v ∧ match v with
      | none => r.opts.cpPath = []
      | some v => OutputFor env v r.asked r.opts.cpPath := by
  unfold arguments
  rw [readArgs_foldl env args {} (not_version h)]
  exact output_fold env args {} (by intro q hq; cases hq)

/-- C123: whatever the arguments, a directory that exists is written to only after consent.  What is missing: this is
about the command; the window does not ask (`consent_refuted`). -/
theorem consent_partial (env : Env) (args : List Str) {D W : Type} (parse : Str → D → W → Except Err W)
    (dump : Str → W → Except Err W) (cwd : Str) (files : List (Node D)) (w : W) :
    let r := arguments env args
    (env.found r.opts.cpPath = .directory → r.opts.cpPath ≠ [] →
      ∃ reply, (r.opts.cpPath, reply) ∈ r.asked ∧ lower reply = "yes".toList) ∧
    (r.opts.cpPath = [] → batch parse dump cwd r.opts files w = processFiles parse cwd files w) := by
  intro r
  refine ⟨?_, ?_⟩
  · have plain : ∀ args, ¬ Given "--version" args → env.found (arguments env args).opts.cpPath = .directory →
        (arguments env args).opts.cpPath ≠ [] →
        ∃ reply, ((arguments env args).opts.cpPath, reply) ∈ (arguments env args).asked ∧
          lower reply = "yes".toList := by
      intro args hv hd hne
      obtain ⟨_, v, hl, hm⟩ := output_exact env args hv
      cases v with
      | none => exact absurd hm hne
      | some v =>
        simp only at hm
        unfold OutputFor at hm
        cases hf : env.found (env.abspath v) with
        | nothing => rw [hf] at hm; simp only at hm; rw [hm, hf] at hd; cases hd
        | other => rw [hf] at hm; exact absurd hm hne
        | directory =>
          rw [hf] at hm
          simp only at hm
          obtain ⟨reply, h1, h2⟩ := hm
          by_cases hy : lower reply = "yes".toList
          · rw [if_pos hy] at h2
            rw [h2]
            exact ⟨reply, List.mem_of_getLast? h1, hy⟩
          · rw [if_neg hy] at h2; exact absurd h2 hne
    have split : ∀ args : List Str, Given "--version" args → ∃ before v after, args = before ++ v :: after ∧
        lower v = "--version".toList ∧ ¬ Given "--version" before := by
      intro args
      induction args with
      | nil => rintro ⟨a, ha, _⟩; cases ha
      | cons a as ih =>
        intro hg
        by_cases ha : lower a = "--version".toList
        · exact ⟨[], a, as, rfl, ha, by rintro ⟨b, hb, _⟩; cases hb⟩
        · have : Given "--version" as := by
            obtain ⟨b, hb, e⟩ := hg
            rcases List.mem_cons.mp hb with rfl | hb
            · exact absurd e ha
            · exact ⟨b, hb, e⟩
          obtain ⟨before, v, after, rfl, hv, hn⟩ := ih this
          refine ⟨a :: before, v, after, rfl, hv, ?_⟩
          rintro ⟨b, hb, e⟩
          rcases List.mem_cons.mp hb with rfl | hb
          · exact ha e
          · exact hn ⟨b, hb, e⟩
    by_cases hv : Given "--version" args
    · obtain ⟨before, v, after, rfl, hlv, hn⟩ := split args hv
      have e := version_partial env before after v hlv hn
      show env.found (arguments env (before ++ v :: after)).opts.cpPath = _ → _
      rw [show r = arguments env (before ++ v :: after) from rfl, e]
      exact plain before hn
    · exact plain args hv
  · intro e
    unfold batch
    simp only [e, ne_eq, not_true_eq_false, if_false]
    cases processFiles parse cwd files w <;> rfl

/-- C123 fails for the window: a directory that exists is used without a question (none is put, so none is recorded),
although the command would ask about the same directory and not use it. -/
theorem consent_refuted : emptyEnv.found (guiCpPath emptyEnv "out".toList) = .directory ∧
    guiCpPath emptyEnv "out".toList = "/out".toList ∧
    (arguments emptyEnv ["--cpout=out".toList]).opts.cpPath = [] ∧
    (arguments emptyEnv ["--cpout=out".toList]).asked = [("/out".toList, "no".toList)] := by
  decide +kernel

/-- An existing directory with consent, and a new one. -/
theorem consent_hypotheses :
    let env := { emptyEnv with reply := fun _ => "YES".toList }
    (arguments env ["--cpout=out".toList, "a.xml".toList]).opts.cpPath = "/out".toList ∧
    (arguments env ["--cpout=out".toList, "--CPOUT=new".toList]).opts.cpPath = "/new".toList ∧
    (arguments env ["--cpout=out".toList, "--version".toList]).opts.cpPath = "/out".toList := by
  decide +kernel

end Verif.Props
