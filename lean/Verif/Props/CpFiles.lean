import Verif.Spec.Files
import Verif.Lemmas.ContentPackage

/-! # Files of a content package (C39-C41, C59, C60) -/

namespace Verif.Props

open Verif Verif.Py Verif.Cp Verif.Spec

set_option linter.unusedVariables false

/-! ## Paths relative to the package -/

theorem packagePath_append (d q rel : List Str) : packagePath d (d ++ q) rel = some (q ++ rel) := by
  generalize hn : q.length = n
  induction n generalizing q rel with
  | zero =>
    cases List.length_eq_zero_iff.mp hn
    rw [packagePath]
    simp
  | succ n ih =>
    have hq : q ≠ [] := by intro h; subst h; simp at hn
    rw [packagePath]
    have hne : d ++ q ≠ d := by
      intro h
      have := congrArg List.length h
      simp at this
      exact hq this
    rw [if_neg hne]
    have hl : (d ++ q).getLast? = some (q.getLast hq) := by
      rw [List.getLast?_append, List.getLast?_eq_some_getLast hq]; rfl
    have hd : (d ++ q).dropLast = d ++ q.dropLast := List.dropLast_append_of_ne_nil hq
    split
    · next h => rw [hl] at h; cases h
    · next t h =>
      rw [hl] at h
      cases h
      rw [hd, ih _ _ (by simp [hn])]
      congr 1
      have := List.dropLast_concat_getLast hq
      calc q.dropLast ++ q.getLast hq :: rel = (q.dropLast ++ [q.getLast hq]) ++ rel := by simp
        _ = q ++ rel := by rw [this]

theorem packagePath_some {d p rel r : List Str} (h : packagePath d p rel = some r) : ∃ q, p = d ++ q ∧ r = q ++ rel := by
  generalize hn : p.length = n
  induction n generalizing p rel with
  | zero =>
    cases List.length_eq_zero_iff.mp hn
    rw [packagePath] at h
    split at h
    · next hd => cases h; exact ⟨[], by simp [hd], rfl⟩
    · simp at h
  | succ n ih =>
    rw [packagePath] at h
    split at h
    · next hd => cases h; exact ⟨[], by simp [hd], rfl⟩
    · split at h
      · cases h
      · next t ht =>
        obtain ⟨q, h1, h2⟩ := ih h (by simp [hn])
        obtain ⟨l, hl⟩ := List.getLast?_eq_some_iff.mp ht
        subst hl
        simp at h1
        exact ⟨q ++ [t], by simp [h1], by simp [h2]⟩

theorem packagePath_isSome_iff (d p : Path) : (∃ r, packagePath d p [] = some r) ↔ InDir d p := by
  constructor
  · rintro ⟨r, h⟩
    obtain ⟨q, h1, _⟩ := packagePath_some h
    exact ⟨q, h1⟩
  · rintro ⟨q, rfl⟩
    exact ⟨_, packagePath_append d q []⟩

theorem inside_of_not_none {d p : Path} (h : packagePath d p [] ≠ none) : InDir d p := by
  cases hp : packagePath d p [] with
  | none => exact absurd hp h
  | some r => exact (packagePath_isSome_iff d p).mp ⟨r, hp⟩

theorem not_none_of_inside {d p : Path} (h : InDir d p) : packagePath d p [] ≠ none := by
  obtain ⟨r, hr⟩ := (packagePath_isSome_iff d p).mpr h
  rw [hr]
  simp

/-! ## C39: expanding an archive stays inside the directory -/

theorem applyOps_append (fs : FS) (a b : List Op) : applyOps fs (a ++ b) = applyOps (applyOps fs a) b := by
  simp [applyOps, List.foldl_append]

theorem applyOps_of_not_mem (fs : FS) (ops : List Op) (q : Path) (h : ∀ op ∈ ops, op.path ≠ q) :
    applyOps fs ops q = fs q := by
  induction ops generalizing fs with
  | nil => rfl
  | cons op ops ih =>
    have h1 := h op (by simp)
    show applyOps (applyOp fs op) ops q = fs q
    rw [ih _ (fun o ho => h o (by simp [ho]))]
    cases op with
    | mkdir p => exact if_neg (fun e => h1 e.symm)
    | write p c => exact if_neg (fun e => h1 e.symm)

theorem needDir_ops {fs : FS} {p : Path} {ops : List Op} (h : needDir fs p = .ok ops) :
    (ops = [] ∧ fs p = some .dir) ∨ (ops = [.mkdir p] ∧ fs p = none) := by
  unfold needDir at h
  split at h
  · cases h; exact .inl ⟨rfl, by assumption⟩
  · split at h
    · next h2 => cases h; exact .inr ⟨rfl, h2.1⟩
    · cases h

theorem walkEntry_below (d : Path) (dec : Str → Option Str) (segs : List Str) (path : Path) (fs : FS)
    (hp : InDir d path) (hd : fs d = some .dir) :
    (∀ op ∈ (walkEntry d dec segs path fs).1, BelowDir d op.path) ∧
      ∀ r, (walkEntry d dec segs path fs).2 = .ok r → InDir d r := by
  induction segs generalizing path fs with
  | nil => exact ⟨by simp [walkEntry], fun r h => by cases h; exact hp⟩
  | cons seg segs ih =>
    rw [walkEntry]
    cases hn : needDir fs path with
    | error e => exact ⟨by simp, fun r h => by cases h⟩
    | ok ops =>
      have hops : ∀ op ∈ ops, BelowDir d op.path := by
        rcases needDir_ops hn with ⟨rfl, _⟩ | ⟨rfl, hnone⟩
        · simp
        · intro op hop
          simp at hop
          subst hop
          obtain ⟨q, rfl⟩ := hp
          refine ⟨q, ?_, rfl⟩
          rintro rfl
          rw [List.append_nil, hd] at hnone
          cases hnone
      cases hdec : dec seg with
      | none => exact ⟨hops, fun r h => by cases h⟩
      | some s =>
        simp only [hdec]
        split
        · exact ⟨hops, fun r h => by cases h⟩
        · next hpk =>
          have hd' : applyOps fs ops d = some .dir := by
            rw [applyOps_of_not_mem _ _ _ ?_, hd]
            intro op hop e
            obtain ⟨q, hq, he⟩ := hops op hop
            rw [e] at he
            exact hq (by simpa using he.symm)
          obtain ⟨h1, h2⟩ := ih (joinNorm path s) (applyOps fs ops) (inside_of_not_none hpk) hd'
          refine ⟨?_, h2⟩
          intro op hop
          rcases List.mem_append.mp hop with h | h
          · exact hops op h
          · exact h1 op h

theorem below_ne {d p : Path} (h : BelowDir d p) : p ≠ d := by
  obtain ⟨q, hq, rfl⟩ := h
  intro e
  exact hq (by simpa using e)

theorem expandEntry_below (d : Path) (dec : Str → Option Str) (name content : Str) (fs : FS) (hd : fs d = some .dir) :
    ∀ op ∈ (expandEntry d dec name content fs).1, BelowDir d op.path := by
  obtain ⟨h1, h2⟩ := walkEntry_below d dec (split '/' name) d fs ⟨[], by simp⟩ hd
  unfold expandEntry
  dsimp only
  cases hr : (walkEntry d dec (split '/' name) d fs).2 with
  | error e => exact h1
  | ok path =>
    dsimp only
    cases hx : applyOps fs (walkEntry d dec (split '/' name) d fs).1 path with
    | some n =>
      cases n with
      | dir => dsimp only; split <;> exact h1
      | file c => exact h1
    | none =>
      dsimp only
      split
      · intro op hop
        rcases List.mem_append.mp hop with h | h
        · exact h1 op h
        · simp at h
          subst h
          obtain ⟨q, rfl⟩ := h2 _ hr
          refine ⟨q, ?_, rfl⟩
          rintro rfl
          rw [List.append_nil, applyOps_of_not_mem _ _ _ (fun op hop => below_ne (h1 op hop)), hd] at hx
          cases hx
      · exact h1

/-- C39: expanding any archive only creates and writes below the package directory. -/
theorem expand_contained (d : Path) (dec : Str → Option Str) (entries : List (Str × Str)) (fs : FS)
    (hd : fs d = some .dir) : ∀ op ∈ (expandZip d dec entries fs).1, BelowDir d op.path := by
  induction entries generalizing fs with
  | nil => simp [expandZip]
  | cons e rest ih =>
    obtain ⟨name, content⟩ := e
    have h1 := expandEntry_below d dec name content fs hd
    rw [expandZip]
    dsimp only
    cases hr : (expandEntry d dec name content fs).2 with
    | error e => exact h1
    | ok u =>
      intro op hop
      rcases List.mem_append.mp hop with h | h
      · exact h1 op h
      · refine ih _ ?_ op h
        rw [applyOps_of_not_mem _ _ _ (fun op hop => below_ne (h1 op hop)), hd]

/-- C39: whatever is not below the package directory is as it was. -/
theorem expand_elsewhere (d : Path) (dec : Str → Option Str) (entries : List (Str × Str)) (fs : FS)
    (hd : fs d = some .dir) (p : Path) (hp : ¬ BelowDir d p) :
    applyOps fs (expandZip d dec entries fs).1 p = fs p :=
  applyOps_of_not_mem _ _ _ fun op hop e => hp (e ▸ expand_contained d dec entries fs hd op hop)

theorem joinNorm_of_no_slash (p : Path) (s : Str) (h : '/' ∉ s) : joinNorm p s = normStep p s := by
  unfold joinNorm
  rw [CP.split_of_not_mem '/' s h]
  have : s.head? ≠ some '/' := by
    intro e
    cases s with
    | nil => cases e
    | cons c t => simp at e; subst e; simp at h
  rw [if_neg this]
  rfl

theorem walkEntry_climbs (d : Path) (dec : Str → Option Str) (hroot : d ≠ []) (segs : List Str) (q : List Str) (fs : FS)
    (hs : ∀ s ∈ segs, '/' ∉ s ∧ dec s = some s) (h : ClimbsOut q.length segs) :
    ∃ e, (walkEntry d dec segs (d ++ q) fs).2 = .error e := by
  induction segs generalizing q fs with
  | nil => exact absurd h (by simp [ClimbsOut])
  | cons seg segs ih =>
    rw [walkEntry]
    cases hn : needDir fs (d ++ q) with
    | error e => exact ⟨e, rfl⟩
    | ok ops =>
      obtain ⟨hsl, hdec⟩ := hs seg (by simp)
      simp only [hdec]
      rw [joinNorm_of_no_slash _ _ hsl]
      split
      · exact ⟨_, rfl⟩
      · next hpk =>
        have hin := inside_of_not_none hpk
        have hs' : ∀ s ∈ segs, '/' ∉ s ∧ dec s = some s := fun s h => hs s (by simp [h])
        show ∃ e, (walkEntry d dec segs (normStep (d ++ q) seg) (applyOps fs ops)).2 = .error e
        unfold ClimbsOut at h
        unfold normStep at hin ⊢
        split at h
        · next hdd =>
          subst hdd
          rw [if_neg (by simp), if_pos rfl] at hin ⊢
          cases q with
          | nil =>
            obtain ⟨r, hr⟩ := hin
            have := congrArg List.length hr
            have hl : 0 < d.length := List.length_pos_iff.mpr hroot
            simp at this
            omega
          | cons a l =>
            have hq : (a :: l) ≠ [] := by simp
            rw [List.dropLast_append_of_ne_nil hq]
            refine ih _ _ hs' ?_
            rcases h with h | h
            · simp at h
            · simpa using h
        · next hdd =>
          split at h
          · next hdot =>
            rw [if_pos hdot]
            exact ih q _ hs' h
          · next hdot =>
            rw [if_neg hdot, if_neg hdd]
            have := ih (q ++ [seg]) (applyOps fs ops) hs' (by simpa using h)
            simpa using this

theorem expandZip_error_of_entry (d : Path) (dec : Str → Option Str) (entries : List (Str × Str)) (fs : FS)
    (name content : Str) (hm : (name, content) ∈ entries)
    (h : ∀ fs, ∃ e, (expandEntry d dec name content fs).2 = .error e) : ∃ e, (expandZip d dec entries fs).2 = .error e := by
  induction entries generalizing fs with
  | nil => cases hm
  | cons x rest ih =>
    obtain ⟨n, c⟩ := x
    rw [expandZip]
    dsimp only
    rcases List.mem_cons.mp hm with he | hm
    · cases he
      obtain ⟨e, he⟩ := h fs
      rw [he]
      exact ⟨e, rfl⟩
    · cases hr : (expandEntry d dec n c fs).2 with
      | error e => exact ⟨e, rfl⟩
      | ok u => exact ih _ hm

/-- C39: an archive with an entry name that leads out of the directory, even on its way, is rejected. -/
theorem expand_rejects (d : Path) (hroot : d ≠ []) (dec : Str → Option Str) (entries : List (Str × Str)) (fs : FS)
    (name content : Str) (hm : (name, content) ∈ entries) (hdec : ∀ s ∈ split '/' name, dec s = some s)
    (h : ClimbsOut 0 (split '/' name)) : ∃ e, (expandZip d dec entries fs).2 = .error e := by
  refine expandZip_error_of_entry d dec entries fs name content hm fun fs => ?_
  obtain ⟨e, he⟩ := walkEntry_climbs d dec hroot (split '/' name) [] fs
    (fun s hs => ⟨CP.split_no_sep '/' name s hs, hdec s hs⟩) h
  rw [List.append_nil] at he
  unfold expandEntry
  dsimp only
  rw [he]
  exact ⟨e, rfl⟩

/-- A file system with one directory. -/
def oneDir : FS := fun p => if p = [] ∨ p = ["tmp".toList] then some .dir else none

example : ClimbsOut 0 (split '/' "a/../../etc/passwd".toList) := by
  have : split '/' "a/../../etc/passwd".toList = ["a".toList, "..".toList, "..".toList, "etc".toList, "passwd".toList] := by
    decide +kernel
  rw [this]
  simp [ClimbsOut]

example : (expandZip ["tmp".toList] some [("a/b.txt".toList, "x".toList)] oneDir).1 =
    [.mkdir ["tmp".toList, "a".toList], .write ["tmp".toList, "a".toList, "b.txt".toList] "x".toList] := by
  decide +kernel

end Verif.Props
