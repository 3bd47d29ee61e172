import Verif.Model.Vfs

/-!
# Paths and hooks of virtual file systems: properties
-/

namespace Verif.Props.Vfs

open Verif Verif.Vfs

/-! ## Paths -/

theorem cut_append (t : Str) (ht : '/' ∉ t) : ∀ h : Str, cut (h ++ '/' :: t) = (h ++ ['/'], t) := by
  intro h
  induction h with
  | nil => simp [cut, ht]
  | cons c cs ih =>
    rw [List.cons_append, cut, if_pos (by simp), ih]
    simp

theorem cut_single (t : Str) (ht : '/' ∉ t) : cut t = ([], t) := by
  cases t with
  | nil => rfl
  | cons c cs =>
    have h1 : '/' ∉ cs := fun h => ht (List.mem_cons_of_mem _ h)
    have h2 : c ≠ '/' := fun h => ht (by rw [h]; simp)
    rw [cut, if_neg h1, if_neg h2]

theorem last_slash (p : Str) (hp : '/' ∈ p) : ∃ h t, p = h ++ '/' :: t ∧ '/' ∉ t := by
  induction p with
  | nil => cases hp
  | cons c cs ih =>
    by_cases h1 : '/' ∈ cs
    · obtain ⟨h, t, e, ht⟩ := ih h1
      exact ⟨c :: h, t, by rw [e]; rfl, ht⟩
    · rcases List.mem_cons.1 hp with h2 | h2
      · exact ⟨[], cs, by rw [h2]; rfl, h1⟩
      · exact absurd h2 h1

theorem join_tail (a t : Str) (ht : '/' ∉ t) :
    join a [t] = if a = [] ∨ a.getLast? = some '/' then a ++ t else a ++ '/' :: t := by
  show join2 a t = _
  cases t with
  | nil => rfl
  | cons c cs =>
    have h2 : c ≠ '/' := fun h => ht (by rw [h]; simp)
    unfold join2
    split
    · rename_i h
      cases h
      exact absurd rfl h2
    · rfl

/-- C362: splitting a path gives what is before its last component, and the component, which is a
single one (or empty); joining them gives the path, if no two slashes are before the component. -/
theorem path_split (p : Str) :
    isSingleComponent (split p).2 = true ∧
    (isSingleComponent p = true → split p = ([], p) ∧ join [] [p] = p) ∧
    ∀ h t : Str, p = h ++ '/' :: t → isSingleComponent t = true → isDirLike h = false →
      split p = (if h = [] then "/".toList else h, t) ∧ join (split p).1 [(split p).2] = p := by
  refine ⟨?_, ?_, ?_⟩
  · have h1 : (split p).2 = (cut p).2 := by unfold split; split <;> rfl
    rw [h1]
    by_cases hp : '/' ∈ p
    · obtain ⟨h, t, e, ht⟩ := last_slash p hp
      rw [e, cut_append t ht]
      simp [isSingleComponent, ht]
    · rw [cut_single p hp]
      simp [isSingleComponent, hp]
  · intro hs
    have hp : '/' ∉ p := by simpa [isSingleComponent] using hs
    refine ⟨?_, ?_⟩
    · unfold split
      rw [cut_single p hp, if_pos (by simp)]
    · rw [join_tail [] p hp]
      simp
  · intro h t hp hs hd
    have ht : '/' ∉ t := by simpa [isSingleComponent] using hs
    have hl : h.getLast? ≠ some '/' := by simpa [isDirLike] using hd
    have hsplit : split p = (if h = [] then "/".toList else h, t) := by
      unfold split
      rw [hp, cut_append t ht]
      by_cases h0 : h = []
      · subst h0
        rw [if_pos (by simp)]
        rfl
      · have hne : ¬ ∀ c ∈ h ++ ['/'], c = '/' := by
          intro hall
          apply hl
          rw [List.getLast?_eq_some_getLast h0]
          exact congrArg some (hall _ (List.mem_append_left _ (List.getLast_mem h0)))
        rw [if_neg hne, if_neg h0]
        have : rstripSlash (h ++ ['/']) = h := by
          unfold rstripSlash
          rw [List.reverse_append]
          simp only [List.reverse_cons, List.reverse_nil, List.nil_append, List.singleton_append]
          rw [List.dropWhile_cons, if_pos (by simp)]
          have hr : h.reverse.head? ≠ some '/' := by rw [List.head?_reverse]; exact hl
          have hk : h.reverse.dropWhile (· = '/') = h.reverse := by
            cases hh : h.reverse with
            | nil => rfl
            | cons c cs =>
              rw [hh] at hr
              have hc : c ≠ '/' := fun e => hr (by rw [e]; rfl)
              rw [List.dropWhile_cons, if_neg (by simpa using hc)]
          rw [hk, List.reverse_reverse]
        simp only [this]
    refine ⟨hsplit, ?_⟩
    rw [hsplit, join_tail _ t ht]
    by_cases h0 : h = []
    · subst h0
      rw [hp]
      rfl
    · simp only [h0, if_false, hl, or_self]
      exact hp.symm

theorem onlySlashes_iff (p : Str) : onlySlashes p = true ↔ ∀ c ∈ p, c = '/' := by
  induction p with
  | nil => simp [onlySlashes]
  | cons c cs ih =>
    rw [onlySlashes]
    by_cases h : c = '/' <;> simp [h, ih]

/-- C363: the kinds of paths: a root is one or more slashes, absolute and like a directory, and no
single component; a single component is neither absolute nor like a directory; joining an absolute
path gives that path, and joining any other keeps what was there in front. -/
theorem path_kinds (p : Str) :
    (isRoot p = true ↔ p ≠ [] ∧ ∀ c ∈ p, c = '/') ∧
    (isRoot p = true → isAbs p = true ∧ isDirLike p = true ∧ isSingleComponent p = false) ∧
    (isSingleComponent p = true → isAbs p = false ∧ isDirLike p = false) ∧
    ∀ a, if isAbs p = true then join a [p] = p else a <+: join a [p] ∧ p <:+ join a [p] := by
  have hroot : isRoot p = true ↔ p ≠ [] ∧ ∀ c ∈ p, c = '/' := by
    cases p with
    | nil => simp [isRoot]
    | cons c cs => simp only [isRoot]; rw [onlySlashes_iff]; simp
  refine ⟨hroot, ?_, ?_, ?_⟩
  · intro h
    obtain ⟨h0, h1⟩ := hroot.1 h
    cases p with
    | nil => exact absurd rfl h0
    | cons c cs =>
      have hc := h1 c (by simp)
      subst hc
      refine ⟨by simp [isAbs], ?_, by simp [isSingleComponent]⟩
      unfold isDirLike
      rw [List.getLast?_eq_some_getLast h0, h1 _ (List.getLast_mem h0)]
      simp
  · intro h
    have hp : '/' ∉ p := by simpa [isSingleComponent] using h
    refine ⟨?_, ?_⟩
    · cases p with
      | nil => rfl
      | cons c cs =>
        have h2 : c ≠ '/' := fun h => hp (by rw [h]; simp)
        simp [isAbs, h2]
    · unfold isDirLike
      have : p.getLast? ≠ some '/' := fun h => hp (List.mem_of_getLast? h)
      simpa using this
  · intro a
    show if isAbs p = true then join2 a p = p else a <+: join2 a p ∧ p <:+ join2 a p
    have hj : isAbs p = false →
        join2 a p = if a = [] ∨ a.getLast? = some '/' then a ++ p else a ++ '/' :: p := by
      intro hp
      unfold join2
      split
      · simp [isAbs] at hp
      · rfl
    cases hp : isAbs p with
    | true =>
      rw [if_pos rfl]
      cases p with
      | nil => simp [isAbs] at hp
      | cons c cs =>
        have hc : c = '/' := by simpa [isAbs] using hp
        subst hc
        rfl
    | false =>
      rw [if_neg (by simp), hj hp]
      split
      · exact ⟨List.prefix_append _ _, List.suffix_append _ _⟩
      · exact ⟨List.prefix_append _ _, ⟨a ++ ['/'], by simp⟩⟩

/-! ## Hooks -/

/-- How many have hooked and not unhooked. -/
def users (us : List Use) : Int := (us.count .hook : Int) - us.count .unhook

theorem run_append (h : Hooks) (us : List Use) (u : Use) : h.run (us ++ [u]) = (h.run us).step u := by
  simp [Hooks.run]

theorem run_inv : ∀ us : List Use, (∀ n, 0 ≤ users (us.take n)) →
    Hooks.initial.run us = ⟨users us, decide (0 < users us)⟩ := by
  intro us
  induction h : us.length generalizing us with
  | zero =>
    intro _
    have := List.length_eq_zero_iff.1 h
    subst this
    rfl
  | succ n ih =>
    intro hb
    rcases List.eq_nil_or_concat us with h0 | ⟨vs, u, h0⟩
    · subst h0; simp at h
    · rw [List.concat_eq_append] at h0
      subst h0
      have hl : vs.length = n := by simpa using h
      have hb' : ∀ n, 0 ≤ users (vs.take n) := by
        intro k
        by_cases hk : k ≤ vs.length
        · have := hb k
          rwa [List.take_append_of_le_length hk] at this
        · have := hb vs.length
          rw [List.take_append_of_le_length (Nat.le_refl _)] at this
          rw [List.take_of_length_le (by omega)]
          rwa [List.take_length] at this
      have hv := hb' vs.length
      rw [List.take_length] at hv
      have ht := hb (vs ++ [u]).length
      rw [List.take_length] at ht
      rw [run_append, ih vs hl hb']
      cases u with
      | hook =>
        have hu : users (vs ++ [.hook]) = users vs + 1 := by
          simp [users, List.count_append]; omega
        rw [hu]
        simp only [Hooks.step]
        congr 1
        by_cases hz : users vs = 0
        · rw [if_pos hz]; symm; simp; omega
        · rw [if_neg hz]
          have h1 : 0 < users vs := by omega
          simp [h1]; omega
      | unhook =>
        have hu : users (vs ++ [.unhook]) = users vs - 1 := by
          simp [users, List.count_append]; omega
        rw [hu] at ht ⊢
        simp only [Hooks.step]
        congr 1
        by_cases hz : users vs - 1 = 0
        · rw [if_pos hz, hz]; rfl
        · rw [if_neg hz]
          have h1 : 0 < users vs := by omega
          have h2 : 0 < users vs - 1 := by omega
          simp [h1]
          omega

/-- C364: `os.stat` and `open` accept paths exactly while there are hooks that were not unhooked, for
all histories in which nobody unhooks too often. -/
theorem hooks_set (us : List Use) (hb : ∀ n, 0 ≤ users (us.take n)) :
    (Hooks.initial.run us).hooked = true ↔ 0 < users us := by
  rw [run_inv us hb]
  simp

/-- C365, refuted: who unhooks twice (or in a `with` statement) takes the hooks from the next user,
whose hooks are not set. -/
theorem hooks_twice_refuted (us : List Use) (hb : ∀ n, 0 ≤ users (us.take n)) (h0 : users us = 0) :
    (Hooks.initial.run (us ++ [.unhook, .hook])).hooked = false := by
  have : us ++ [.unhook, .hook] = (us ++ [.unhook]) ++ [.hook] := by simp
  rw [this, run_append, run_append, run_inv us hb, h0]
  rfl

/-- The steps of one thread in a schedule. -/
def stepsOf (t : Bool) (xs : List (Bool × Micro)) : List Micro := (xs.filter (·.1 == t)).map (·.2)

/-- C366, refuted: two threads hook, one of them unhooks, and the hooks of the other are gone. -/
theorem hooks_threads_refuted :
    ∃ xs : List (Bool × Micro), stepsOf true xs = hookSteps ++ unhookSteps ∧ stepsOf false xs = hookSteps ∧
      (Threads.run ⟨Hooks.initial, fun _ => 0⟩ xs).hooks.hooked = false := by
  refine ⟨[(true, .hookIfZero), (false, .hookIfZero), (true, .load), (false, .load), (true, .storeSucc),
    (false, .storeSucc), (true, .load), (true, .storePred), (true, .unhookIfZero)], rfl, rfl, rfl⟩

/-- One thread alone does what the history says. -/
theorem hooks_alone (h : Hooks) (l : Bool → Int) (t : Bool) :
    (Threads.run ⟨h, l⟩ (hookSteps.map (t, ·))).hooks = h.step .hook ∧
    (Threads.run ⟨h, l⟩ (unhookSteps.map (t, ·))).hooks = h.step .unhook := by
  constructor
  · simp only [Threads.run, hookSteps, List.map, List.foldl, Threads.step, Hooks.step, if_true]
    by_cases h0 : h.count = 0 <;> simp [h0]
  · simp only [Threads.run, unhookSteps, List.map, List.foldl, Threads.step, Hooks.step, if_true]
    by_cases h0 : h.count - 1 = 0 <;> simp [h0]

/-- Concrete cases. -/
theorem vfs_sample :
    split "/a/b".toList = ("/a".toList, "b".toList) ∧ split "//b".toList = ("//".toList, "b".toList) ∧
    join "a".toList ["b".toList, "/c".toList, "d".toList] = "/c/d".toList ∧
    (∀ n, 0 ≤ users (([.hook, .hook, .unhook] : List Use).take n)) ∧
    (Hooks.initial.run [.hook, .hook, .unhook]).hooked = true := by
  refine ⟨by decide +kernel, by decide +kernel, by decide +kernel, ?_, by decide +kernel⟩
  intro n
  match n with
  | 0 => decide
  | 1 => decide
  | 2 => decide
  | n + 3 => simp [users]

end Verif.Props.Vfs
