import Verif.Props.Uri

/-!
# Paths: normalization (C37) and relative references (C38)
-/

namespace Verif.Props

open Verif Verif.Uri Verif.Spec

set_option linter.unusedVariables false

/-! ## C37 Normalization -/

/-- Neither `.` nor `..`. -/
def NoDots (l : List Str) : Prop := ∀ s ∈ l, s ≠ ['.'] ∧ s ≠ ['.', '.']

theorem follow_one (u : Nat) (d : List Str) (s : Str) : follow u d [s] =
    if s = ['.'] then ⟨u, d, []⟩
    else if s = ['.', '.'] then ⟨(stepUp u d).1, (stepUp u d).2, []⟩
    else ⟨u, d, s⟩ := by rw [follow]

theorem follow_cons (u : Nat) (d : List Str) (s : Str) (rest : List Str) (h : rest ≠ []) : follow u d (s :: rest) =
    if s = ['.'] then follow u d rest
    else if s = ['.', '.'] then follow (stepUp u d).1 (stepUp u d).2 rest
    else follow u (s :: d) rest := by
  cases rest with
  | nil => exact absurd rfl h
  | cons a b => rw [follow]; simp

theorem noDots_tail {a : Str} {l : List Str} (h : NoDots (a :: l)) : NoDots l := fun s hs => h s (by simp [hs])

/-- The list that `normalizeSegments` builds from the result of its loop. -/
def finishNorm (r : List Str) : List Str := if r.getLast? = some dotdot then r ++ [[]] else r

theorem finish_snoc (l : List Str) (s : Str) (h : s ≠ ['.', '.']) : finishNorm (l ++ [s]) = l ++ [s] := by
  unfold finishNorm dotdot
  rw [if_neg]
  simp [h]

theorem rev_pre (st : List Str) (u : Nat) : (st ++ List.replicate u dotdot).reverse =
    List.replicate u ['.', '.'] ++ st.reverse := by
  rw [List.reverse_append, List.reverse_replicate]; rfl

theorem norm_nil (pre : List Str) : normLoop pre [] = pre.reverse := by rw [normLoop.eq_def]

theorem norm_dot (pre rest : List Str) : normLoop pre (['.'] :: rest) =
    if rest = [] then normLoop ([] :: pre) rest else normLoop pre rest := by
  rw [normLoop.eq_def]; simp [dot]

theorem norm_name (pre : List Str) (s : Str) (rest : List Str) (h1 : s ≠ ['.']) (h2 : s ≠ ['.', '.']) :
    normLoop pre (s :: rest) = normLoop (s :: pre) rest := by
  rw [normLoop.eq_def]; simp [dot, dotdot, h1, h2]

theorem norm_up (p : Str) (ps rest : List Str) (h : p ≠ ['.', '.']) : normLoop (p :: ps) (['.', '.'] :: rest) =
    if rest = [] then normLoop ([] :: ps) rest else normLoop ps rest := by
  rw [normLoop.eq_def]; simp [dot, dotdot, h]

theorem norm_ups (u : Nat) (rest : List Str) : normLoop (List.replicate u dotdot) (['.', '.'] :: rest) =
    normLoop (List.replicate (u + 1) dotdot) rest := by
  rw [normLoop.eq_def]
  cases u with
  | zero => simp [dot, dotdot]
  | succ u => simp [dot, dotdot, List.replicate_succ]

theorem normLoop_follow (segs : List Str) : ∀ (u : Nat) (st : List Str), segs ≠ [] → NoDots st →
    finishNorm (normLoop (st ++ List.replicate u dotdot) segs) = (follow u st segs).segments := by
  induction segs with
  | nil => intro u st h; exact absurd rfl h
  | cons s rest ih =>
    intro u st _ hst
    cases rest with
    | nil =>
      rw [follow_one]
      by_cases h1 : s = ['.']
      · subst h1
        rw [if_pos rfl, norm_dot, if_pos rfl, norm_nil, List.reverse_cons, finish_snoc _ _ (by decide), rev_pre]
        rfl
      · rw [if_neg h1]
        by_cases h2 : s = ['.', '.']
        · subst h2
          rw [if_pos rfl]
          cases st with
          | cons p st =>
            rw [List.cons_append, norm_up _ _ _ (hst p (by simp)).2, if_pos rfl, norm_nil, List.reverse_cons,
              finish_snoc _ _ (by decide), rev_pre]
            rfl
          | nil =>
            rw [List.nil_append, norm_ups, norm_nil, List.reverse_replicate]
            unfold finishNorm
            rw [if_pos (by simp [List.getLast?_replicate])]
            simp [stepUp, Place.segments, dotdot]
        · rw [if_neg h2, norm_name _ _ _ h1 h2, norm_nil, List.reverse_cons, finish_snoc _ _ h2, rev_pre]
          rfl
    | cons s2 rest =>
      rw [follow_cons _ _ _ _ (by simp)]
      by_cases h1 : s = ['.']
      · subst h1
        rw [if_pos rfl, norm_dot, if_neg (by simp)]
        exact ih u st (by simp) hst
      · rw [if_neg h1]
        by_cases h2 : s = ['.', '.']
        · subst h2
          rw [if_pos rfl]
          cases st with
          | cons p st =>
            rw [List.cons_append, norm_up _ _ _ (hst p (by simp)).2, if_neg (by simp)]
            exact ih u st (by simp) (noDots_tail hst)
          | nil =>
            rw [List.nil_append, norm_ups]
            exact ih (u + 1) [] (by simp) (by simp [NoDots])
        · rw [if_neg h2, norm_name _ _ _ h1 h2]
          refine ih u (s :: st) (by simp) ?_
          intro x hx
          simp only [List.mem_cons] at hx
          rcases hx with hx | hx
          · subst hx; exact ⟨h1, h2⟩
          · exact hst x hx

/-- C37: the normalized path is the shortest list of segments that leads to the same place. -/
theorem path_normal_segments (segs : List Str) (h : segs ≠ []) : normalizeSegments segs = (place segs).segments :=
  normLoop_follow segs 0 [] h (by simp [NoDots])

/-- The names of a place are neither `.` nor `..`. -/
theorem follow_names (segs : List Str) : ∀ (u : Nat) (d : List Str), NoDots d →
    NoDots (follow u d segs).down ∧ (follow u d segs).last ≠ ['.'] ∧ (follow u d segs).last ≠ ['.', '.'] := by
  have hup : ∀ (u : Nat) (d : List Str), NoDots d → NoDots (stepUp u d).2 := by
    intro u d hd
    cases d with
    | nil => exact hd
    | cons a d => exact noDots_tail hd
  induction segs with
  | nil => intro u d hd; exact ⟨hd, by simp [follow], by simp [follow]⟩
  | cons s rest ih =>
    intro u d hd
    cases rest with
    | nil =>
      rw [follow_one]
      split
      · exact ⟨hd, by simp, by simp⟩
      · rename_i h1
        split
        · exact ⟨hup u d hd, by simp, by simp⟩
        · rename_i h2; exact ⟨hd, h1, h2⟩
    | cons s2 rest =>
      rw [follow_cons _ _ _ _ (by simp)]
      split
      · exact ih u d hd
      · rename_i h1
        split
        · exact ih _ _ (hup u d hd)
        · rename_i h2
          refine ih u (s :: d) ?_
          intro x hx
          simp only [List.mem_cons] at hx
          rcases hx with hx | hx
          · subst hx; exact ⟨h1, h2⟩
          · exact hd x hx

theorem follow_down (l : List Str) (hl : NoDots l) (rest : List Str) (hr : rest ≠ []) : ∀ u d,
    follow u d (l ++ rest) = follow u (l.reverse ++ d) rest := by
  induction l with
  | nil => intro u d; rfl
  | cons s l ih =>
    intro u d
    show follow u d (s :: (l ++ rest)) = _
    rw [follow_cons _ _ _ _ (by simp [hr]), if_neg (hl s (by simp)).1, if_neg (hl s (by simp)).2, ih (noDots_tail hl)]
    simp

theorem follow_ups (n : Nat) (rest : List Str) (hr : rest ≠ []) : ∀ u,
    follow u [] (List.replicate n ['.', '.'] ++ rest) = follow (u + n) [] rest := by
  induction n with
  | zero => intro u; rfl
  | succ n ih =>
    intro u
    rw [List.replicate_succ, List.cons_append, follow_cons _ _ _ _ (by simp [hr]), if_neg (by decide), if_pos rfl]
    show follow (u + 1) [] _ = _
    rw [ih]; congr 1; omega

/-- The shortest list of segments for a place leads there. -/
theorem place_segments (p : Place) (h1 : NoDots p.down) (h2 : p.last ≠ ['.']) (h3 : p.last ≠ ['.', '.']) :
    place p.segments = p := by
  have hd : NoDots p.down.reverse := fun s hs => h1 s (by simpa using hs)
  unfold place Place.segments
  rw [List.append_assoc, follow_ups _ _ (by simp), follow_down _ hd _ (by simp), follow_one, if_neg h2, if_neg h3]
  simp

theorem place_wf (segs : List Str) : NoDots (place segs).down ∧ (place segs).last ≠ ['.'] ∧ (place segs).last ≠ ['.', '.'] :=
  follow_names segs 0 [] (by simp [NoDots])

/-- C37: normalization does not change where a path leads. -/
theorem path_normal_same_place (segs : List Str) : place (normalizeSegments segs) = place segs := by
  by_cases h : segs = []
  · subst h; rfl
  · rw [path_normal_segments segs h]
    obtain ⟨h1, h2, h3⟩ := place_wf segs
    exact place_segments _ h1 h2 h3

/-- C37: a normalized path has no `.` segment. -/
theorem path_normal_no_dot (segs : List Str) : ['.'] ∉ normalizeSegments segs := by
  by_cases h : segs = []
  · subst h; decide
  · rw [path_normal_segments segs h]
    obtain ⟨h1, h2, h3⟩ := place_wf segs
    unfold Place.segments
    intro hm
    simp only [List.mem_append, List.mem_replicate, List.mem_reverse, List.mem_cons, List.not_mem_nil, or_false] at hm
    rcases hm with (⟨_, hm⟩ | hm) | hm
    · cases hm
    · exact (h1 _ hm).1 rfl
    · exact h2 hm.symm

/-- C37: in a normalized path a `..` segment is only preceded by `..` segments and is never the last one. -/
theorem path_normal_dotdot (segs a b : List Str) (h : normalizeSegments segs = a ++ ['.', '.'] :: b) :
    (∀ s ∈ a, s = ['.', '.']) ∧ b ≠ [] := by
  by_cases hs : segs = []
  · subst hs
    exact absurd h (by simp [normalizeSegments, normLoop])
  · rw [path_normal_segments segs hs] at h
    obtain ⟨h1, h2, h3⟩ := place_wf segs
    unfold Place.segments at h
    rw [List.append_assoc] at h
    have hN : NoDots ((place segs).down.reverse ++ [(place segs).last]) := by
      intro s hs
      simp only [List.mem_append, List.mem_reverse, List.mem_cons, List.not_mem_nil, or_false] at hs
      rcases hs with hs | hs
      · exact h1 s hs
      · subst hs; exact ⟨h2, h3⟩
    rw [List.append_eq_append_iff] at h
    rcases h with ⟨z, e1, e2⟩ | ⟨z, e1, e2⟩
    · exact absurd rfl (hN ['.', '.'] (by rw [e2]; simp)).2
    · constructor
      · intro s hs
        have : s ∈ List.replicate (place segs).ups ['.', '.'] := by rw [e1]; simp [hs]
        exact (List.mem_replicate.1 this).2
      · intro hb
        subst hb
        have hlast := congrArg List.getLast? e2
        simp only [List.getLast?_append, List.getLast?_singleton, Option.some_or, Option.some.injEq] at hlast
        exact h3 hlast.symm

/-- C37: normalizing again changes nothing. -/
theorem path_normal_idempotent (segs : List Str) : normalizeSegments (normalizeSegments segs) = normalizeSegments segs := by
  by_cases h : segs = []
  · subst h; rfl
  · have hne : normalizeSegments segs ≠ [] := by rw [path_normal_segments segs h]; simp [Place.segments]
    rw [path_normal_segments _ hne, path_normal_same_place, ← path_normal_segments segs h]

/-- A path with navigation. -/
example : normalizeSegments ["a".toList, ".".toList, "b".toList, "..".toList, "..".toList, "..".toList, "c".toList, "..".toList]
    = ["..".toList, []] ∧
    place ["a".toList, ".".toList, "b".toList, "..".toList, "..".toList, "..".toList, "c".toList, "..".toList] = ⟨1, [], []⟩ := by
  decide

end Verif.Props
