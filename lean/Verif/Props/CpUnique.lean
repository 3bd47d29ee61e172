import Verif.Props.CpFiles

/-! # New paths, added and deleted files of a package (C40, C41, C60) -/

namespace Verif.Props

open Verif Verif.Py Verif.Cp Verif.Spec

set_option linter.unusedVariables false

/-! ## C40 -/

/-- Value of an upper-case hexadecimal digit. -/
def digitOf (c : Char) : Nat := if c.toNat < 58 then c.toNat - 48 else c.toNat - 55

theorem digitOf_upHex (n : Nat) (h : n < 16) : digitOf (upHexDigit n) = n := by
  have : ∀ k : Fin 16, digitOf (upHexDigit k) = k := by decide +kernel
  exact this ⟨n, h⟩

theorem upHex_safe (n : Nat) (h : n < 16) : upHexDigit n ≠ '/' := by
  have : ∀ k : Fin 16, upHexDigit k ≠ '/' := by decide +kernel
  exact this ⟨n, h⟩

theorem hexStr_value (n : Nat) : (hexStr n).foldl (fun a c => 16 * a + digitOf c) 0 = n := by
  induction n using Nat.strongRecOn with
  | ind n ih =>
    rw [hexStr]
    split
    · next h => simp [digitOf_upHex n h]
    · next h =>
      rw [List.foldl_append, ih (n / 16) (by omega)]
      simp only [List.foldl_cons, List.foldl_nil]
      rw [digitOf_upHex _ (Nat.mod_lt _ (by omega))]
      omega

theorem hexStr_inj {a b : Nat} (h : hexStr a = hexStr b) : a = b := by
  rw [← hexStr_value a, h, hexStr_value b]

theorem hexStr_safe (n : Nat) : '/' ∉ hexStr n := by
  induction n using Nat.strongRecOn with
  | ind n ih =>
    rw [hexStr]
    split
    · next h => simpa using (upHex_safe n h).symm
    · next h =>
      intro hm
      rcases List.mem_append.mp hm with h1 | h1
      · exact ih (n / 16) (by omega) h1
      · simp at h1
        exact upHex_safe _ (Nat.mod_lt _ (by omega)) h1.symm

theorem candidate_inj {dirs : List Str} {name : Str} {a b : Nat} (h : candidate dirs name a = candidate dirs name b) :
    a = b := by
  unfold candidate at h
  have h1 := List.append_cancel_left h
  simp only [List.cons.injEq, and_true] at h1
  have h2 := List.append_cancel_right h1
  have h3 := List.append_cancel_left h2
  simp only [List.cons.injEq, true_and] at h3
  exact hexStr_inj h3

theorem uniqueLoop_none {found : List Str → Bool} {dirs : List Str} {name : Str} {fuel extra : Nat}
    (h : uniqueLoop found dirs name fuel extra = none) : ∀ k, k < fuel → found (candidate dirs name (extra + k)) = true := by
  induction fuel generalizing extra with
  | zero => intro k hk; omega
  | succ fuel ih =>
    rw [uniqueLoop] at h
    split at h
    · next hf =>
      intro k hk
      cases k with
      | zero => exact hf
      | succ k =>
        have := ih h k (by omega)
        rw [show extra + (k + 1) = extra + 1 + k by omega]
        exact this
    · cases h

theorem uniqueLoop_some {found : List Str → Bool} {dirs : List Str} {name : Str} {fuel extra : Nat} {r : List Str}
    (h : uniqueLoop found dirs name fuel extra = some r) : found r = false ∧ ∃ k, r = candidate dirs name k := by
  induction fuel generalizing extra with
  | zero => cases h
  | succ fuel ih =>
    rw [uniqueLoop] at h
    split at h
    · exact ih h
    · next hf => cases h; exact ⟨by simpa using hf, extra, rfl⟩

theorem nodup_subset_length {α : Type} [DecidableEq α] : ∀ (l t : List α), l.Nodup → (∀ x ∈ l, x ∈ t) → l.length ≤ t.length
  | [], t, _, _ => by simp
  | a :: l, t, hn, hs => by
    rw [List.nodup_cons] at hn
    have := nodup_subset_length l (t.erase a) hn.2 (fun x hx => by
      have hxa : x ≠ a := fun e => hn.1 (e ▸ hx)
      exact (List.mem_erase_of_ne hxa).mpr (hs x (by simp [hx])))
    rw [List.length_erase_of_mem (hs a (by simp))] at this
    have : 0 < t.length := List.length_pos_of_mem (hs a (by simp))
    simp
    omega

/-- C40: the search for a new path ends: it looks at no more paths than the table has, and one. -/
theorem unique_file_ends (d : Path) (table : List (List Str)) (hashHit : List Str → Bool) (p : Path) (draw fuel : Nat)
    (hfuel : table.length < fuel) : getUniqueFile d table hashHit p draw fuel ≠ .ok none := by
  unfold getUniqueFile
  split
  · simp
  · next rel _ =>
    split
    · simp
    · next name _ =>
      split
      · intro h
        have h := Except.ok.inj h
        have hall := uniqueLoop_none h
        have hl := nodup_subset_length ((List.range fuel).map fun k => candidate rel.dropLast name (draw + k)) table
          (by
            rw [List.nodup_iff_pairwise_ne, List.pairwise_map]
            refine List.Pairwise.imp ?_ (List.nodup_iff_pairwise_ne.mp List.nodup_range)
            intro a b hab e
            exact hab (by have := candidate_inj e; omega))
          (fun x hx => by
            obtain ⟨k, hk, rfl⟩ := List.mem_map.mp hx
            have := hall k (List.mem_range.mp hk)
            simp at this
            exact this.2)
        simp at hl
        omega
      · simp

theorem normStep_names {p : Path} {c : Str} (hp : ∀ s ∈ p, FileName s) (hc : '/' ∉ c) : ∀ s ∈ normStep p c, FileName s := by
  unfold normStep
  split
  · exact hp
  · next h1 =>
    split
    · exact fun s hs => hp s (List.dropLast_subset p hs)
    · next h2 =>
      intro s hs
      rcases List.mem_append.mp hs with h | h
      · exact hp s h
      · simp at h
        subst h
        exact ⟨fun e => h1 (.inl e), fun e => h1 (.inr e), h2, hc⟩

theorem foldl_normStep_names (cs : List Str) (p : Path) (hp : ∀ s ∈ p, FileName s) (hc : ∀ c ∈ cs, '/' ∉ c) :
    ∀ s ∈ cs.foldl normStep p, FileName s := by
  induction cs generalizing p with
  | nil => exact hp
  | cons c cs ih => exact ih _ (normStep_names hp (hc c (by simp))) (fun x h => hc x (by simp [h]))

theorem joinNorm_names (p : Path) (s : Str) (hp : ∀ s ∈ p, FileName s) : ∀ c ∈ joinNorm p s, FileName c := by
  unfold joinNorm
  split
  · exact foldl_normStep_names _ [] (by simp) (CP.split_no_sep '/' s)
  · exact foldl_normStep_names _ p hp (CP.split_no_sep '/' s)

theorem suggested_names (d : Path) (s : Str) (hd : ∀ c ∈ d, FileName c) : ∀ c ∈ suggested d s, FileName c := by
  unfold suggested
  split <;> exact joinNorm_names _ _ hd

theorem splitext_append (name : Str) : (splitext name).1 ++ (splitext name).2 = name := by
  unfold splitext
  dsimp only
  split
  · next h =>
    obtain ⟨h1, _⟩ := h
    have key : ∀ l : List Char, (l.takeWhile (· ≠ '.')).length < l.length →
        l.takeWhile (· ≠ '.') ++ '.' :: l.drop ((l.takeWhile (· ≠ '.')).length + 1) = l := by
      intro l
      induction l with
      | nil => intro h; simp at h
      | cons c t ih =>
        intro h
        by_cases hc : c = '.'
        · subst hc; simp
        · have hc' : (c :: t).takeWhile (fun x => decide (x ≠ '.')) = c :: t.takeWhile (fun x => decide (x ≠ '.')) := by
            rw [List.takeWhile_cons_of_pos (by simp [hc])]
          rw [hc'] at h ⊢
          simp only [List.length_cons, List.drop_succ_cons, List.cons_append, List.cons.injEq, true_and]
          exact ih (by simpa using h)
    have := congrArg List.reverse (key name.reverse (by simpa using h1))
    simpa using this
  · simp

theorem candidate_name (name : Str) (hn : FileName name) (k : Nat) :
    FileName ((splitext name).1 ++ '_' :: hexStr k ++ (splitext name).2) := by
  have hu : '_' ∈ (splitext name).1 ++ '_' :: hexStr k ++ (splitext name).2 := by simp
  refine ⟨fun e => by rw [e] at hu; simp at hu, fun e => by rw [e] at hu; simp at hu,
    fun e => by rw [e] at hu; simp at hu, ?_⟩
  have hsl := hn.2.2.2
  rw [← splitext_append name] at hsl
  have := hexStr_safe k
  simp at hsl ⊢
  exact ⟨hsl.1, this, hsl.2⟩

/-- C40: the path returned, joined to the package directory, is that of something below it, all of its components are
ordinary file names. -/
theorem unique_file_inside (d : Path) (table : List (List Str)) (hashHit : List Str → Bool) (s : Str) (draw fuel : Nat)
    (hd : ∀ c ∈ d, FileName c) (r : List Str)
    (h : getUniqueFile d table hashHit (suggested d s) draw fuel = .ok (some r)) : r ≠ [] ∧ ∀ c ∈ r, FileName c := by
  have hs := suggested_names d s hd
  unfold getUniqueFile at h
  cases hp : packagePath d (suggested d s) [] with
  | none => rw [hp] at h; cases h
  | some rel =>
    rw [hp] at h
    dsimp only at h
    obtain ⟨q, hq, hrel⟩ := packagePath_some hp
    rw [List.append_nil] at hrel
    subst hrel
    have hnames : ∀ c ∈ rel, FileName c := fun c hc => hs c (by rw [hq]; simp [hc])
    cases hl : rel.getLast? with
    | none => rw [hl] at h; cases h
    | some name =>
      rw [hl] at h
      dsimp only at h
      obtain ⟨l, hlist⟩ := List.getLast?_eq_some_iff.mp hl
      split at h
      · have h := Except.ok.inj h
        obtain ⟨_, k, rfl⟩ := uniqueLoop_some h
        refine ⟨by simp [candidate], ?_⟩
        intro c hc
        rcases List.mem_append.mp hc with hc | hc
        · exact hnames c (List.dropLast_subset rel hc)
        · simp only [List.mem_singleton] at hc
          subst hc
          exact candidate_name name (hnames name (by rw [hlist]; simp)) k
      · cases h
        refine ⟨?_, hnames⟩
        rw [hlist]
        simp

/-- C40: only paths inside the package are accepted. -/
theorem unique_file_refuses (d : Path) (table : List (List Str)) (hashHit : List Str → Bool) (p : Path) (draw fuel : Nat)
    (h : ¬ BelowDir d p) : ∃ e, getUniqueFile d table hashHit p draw fuel = .error e := by
  unfold getUniqueFile
  split
  · exact ⟨_, rfl⟩
  · next rel hp =>
    obtain ⟨q, hq, hrel⟩ := packagePath_some hp
    rw [List.append_nil] at hrel
    subst hrel
    cases rel with
    | nil => exact ⟨_, rfl⟩
    | cons a l => exact absurd ⟨a :: l, by simp, hq⟩ h

/-- C40, as far as it holds: the path returned is new if the path suggested is, in which case it is returned as it is,
or if looking up the text of a path in the table finds the path. -/
theorem unique_file_fresh_partial (d : Path) (table : List (List Str)) (hashHit : List Str → Bool) (p : Path)
    (draw fuel : Nat) (r : List Str) (h : getUniqueFile d table hashHit p draw fuel = .ok (some r)) :
    (p = d ++ r → r ∉ table) ∧ (hashHit r = true → r ∉ table) ∧ ((∀ q, p = d ++ q → q ∉ table) → p = d ++ r) := by
  unfold getUniqueFile at h
  split at h
  · cases h
  · next rel hp =>
    obtain ⟨q, hq, hrel⟩ := packagePath_some hp
    rw [List.append_nil] at hrel
    subst hrel
    split at h
    · cases h
    · next name hname =>
      split at h
      · next hmem =>
        have h := Except.ok.inj h
        obtain ⟨h1, k, hk⟩ := uniqueLoop_some h
        refine ⟨?_, ?_, fun hall => absurd hmem (hall rel hq)⟩
        · intro e
          rw [hq] at e
          have e := List.append_cancel_left e
          rw [hk] at e
          obtain ⟨l, hlist⟩ := List.getLast?_eq_some_iff.mp hname
          rw [hlist] at e
          unfold candidate at e
          rw [List.dropLast_concat] at e
          have e := List.append_cancel_left e
          simp only [List.cons.injEq, and_true] at e
          have e := congrArg List.length e
          rw [show name.length = ((splitext name).1 ++ (splitext name).2).length by rw [splitext_append]] at e
          simp at e
          omega
        · intro hh hm
          simp [hh, hm] at h1
      · next hmem =>
        cases h
        exact ⟨fun _ => hmem, fun _ => hmem, fun _ => hq⟩

/-- C40 is false: unless the text of a path happens to have the hash of the path, a path that is in the package is
returned. -/
theorem unique_file_fails (hashHit : List Str → Bool) (hh : hashHit ["a_1.txt".toList] = false) :
    getUniqueFile ["p".toList] [["a.txt".toList], ["a_1.txt".toList]] hashHit (suggested ["p".toList] "A.txt".toList) 1 9
      = .ok (some ["a_1.txt".toList]) := by
  have h1 : suggested ["p".toList] "A.txt".toList = ["p".toList] ++ ["a.txt".toList] := by decide +kernel
  have h2 : candidate [] "a.txt".toList 1 = ["a_1.txt".toList] := by decide +kernel
  unfold getUniqueFile
  rw [h1, packagePath_append, List.append_nil]
  show (if ["a.txt".toList] ∈ [["a.txt".toList], ["a_1.txt".toList]] then
    Except.ok (uniqueLoop _ [] "a.txt".toList 9 1) else _) = _
  rw [if_pos (by simp), uniqueLoop, if_neg (by rw [h2, hh]; simp), h2]

example : getUniqueFile ["p".toList] [["a.txt".toList], ["a_1.txt".toList]] (fun _ => true)
    (suggested ["p".toList] "A.txt".toList) 1 9 = .ok (some ["a_2.txt".toList]) := by decide +kernel

/-! ## C41 -/

/-- The name of the manifest. -/
def manifestName : Str := "imsmanifest.xml".toList

/-- C41 is false: the manifest can be added to any resource... -/
theorem manifest_added (d : Path) (ignore : Str → Bool) (hi : ignore manifestName = false) (pkg : Pkg) (i : Nat) :
    ∃ pkg', addFile d ignore pkg i (some (d ++ [manifestName])) = .ok pkg' ∧
      pkg'.resources = pkg.resources.modify i (· ++ [some [manifestName]]) := by
  unfold addFile
  simp only [List.getLast?_concat, Option.getD_some, hi]
  rw [packagePath_append]
  exact ⟨_, rfl, rfl⟩

/-- C41 is false: ... and deleted, if no resource has a file that is not local. -/
theorem manifest_deleted (d : Path) (ignore : Str → Bool) (hi : ignore manifestName = false) (pkg : Pkg) (c : Str)
    (hf : pkg.fs (d ++ [manifestName]) = some (.file c)) (hl : ∀ files ∈ pkg.resources, none ∉ files) :
    ∃ pkg', deleteFile d ignore pkg (some (d ++ [manifestName])) = .ok pkg' ∧ pkg'.fs (d ++ [manifestName]) = none := by
  unfold deleteFile
  simp only [hf, List.getLast?_concat, Option.getD_some, hi]
  rw [packagePath_append]
  have : pkg.resources.mapM (dropRefs [manifestName]) = .ok (pkg.resources.map fun fs => fs.filter (· ≠ some [manifestName])) := by
    generalize pkg.resources = rs at hl
    induction rs with
    | nil => rfl
    | cons f rs ih =>
      rw [List.mapM_cons, ih (fun x h => hl x (by simp [h]))]
      unfold dropRefs
      rw [if_neg (hl f (by simp))]
      rfl
  simp only [List.append_nil, this]
  exact ⟨_, rfl, if_pos rfl⟩

/-- C41, as far as it holds: a file that is not below the package directory or whose name is ignored is neither added nor
deleted. -/
theorem file_protected_partial (d : Path) (ignore : Str → Bool) (pkg : Pkg) (i : Nat) (p : Path)
    (h : ¬ BelowDir d p ∨ ignore (p.getLast?.getD []) = true) :
    (∃ e, addFile d ignore pkg i (some p) = .error e) ∧
      (pkg.fs d = some .dir → ∃ e, deleteFile d ignore pkg (some p) = .error e) := by
  have hpk : ∀ rel, ¬ BelowDir d p → packagePath d p [] = some rel → rel = [] := by
    intro rel hb hr
    obtain ⟨q, hq, hrel⟩ := packagePath_some hr
    rw [List.append_nil] at hrel
    subst hrel
    exact Decidable.byContradiction fun hne => hb ⟨rel, hne, hq⟩
  constructor
  · unfold addFile
    dsimp only
    split
    · exact ⟨_, rfl⟩
    · next hi =>
      rcases h with h | h
      · split
        · exact ⟨_, rfl⟩
        · next rel hr => rw [if_pos (hpk rel h hr)]; exact ⟨_, rfl⟩
      · exact absurd h hi
  · intro hd
    unfold deleteFile
    dsimp only
    split
    · next c hfile =>
      split
      · exact ⟨_, rfl⟩
      · next hi =>
        rcases h with h | h
        · split
          · exact ⟨_, rfl⟩
          · next rel hr =>
            have := hpk rel h hr
            obtain ⟨q, hq, hrel⟩ := packagePath_some hr
            rw [List.append_nil] at hrel
            subst hrel
            subst this
            rw [List.append_nil] at hq
            subst hq
            rw [hd] at hfile
            cases hfile
        · exact absurd h hi
    · exact ⟨_, rfl⟩

/-! ## C60 -/

theorem dropRefs_ok {rel : List Str} {files files' : List (Option (List Str))} (h : dropRefs rel files = .ok files') :
    files' = files.filter (· ≠ some rel) := by
  unfold dropRefs at h
  split at h
  · cases h
  · cases h; rfl

theorem mapM_dropRefs {rel : List Str} : ∀ {rs rs' : List (List (Option (List Str)))}, rs.mapM (dropRefs rel) = .ok rs' →
    rs' = rs.map fun fs => fs.filter (· ≠ some rel)
  | [], rs', h => by cases h; rfl
  | f :: rs, rs', h => by
    rw [List.mapM_cons] at h
    cases hf : dropRefs rel f with
    | error e => rw [hf] at h; cases h
    | ok f' =>
      rw [hf] at h
      cases hr : rs.mapM (dropRefs rel) with
      | error e => rw [hr] at h; cases h
      | ok rs2 =>
        rw [hr] at h
        cases h
        rw [mapM_dropRefs hr, dropRefs_ok hf]
        rfl

/-- C60: if a file is deleted, it is gone from the file system, from the file table and from every resource, and nothing
else has changed. -/
theorem delete_file (d : Path) (ignore : Str → Bool) (pkg pkg' : Pkg) (rel : List Str)
    (h : deleteFile d ignore pkg (some (d ++ rel)) = .ok pkg') :
    pkg'.fs (d ++ rel) = none ∧ (∀ p, p ≠ d ++ rel → pkg'.fs p = pkg.fs p) ∧
      (∀ q, q ∈ pkg'.table ↔ q ∈ pkg.table ∧ q ≠ rel) ∧
      pkg'.resources = pkg.resources.map fun files => files.filter (· ≠ some rel) := by
  unfold deleteFile at h
  dsimp only at h
  split at h
  · split at h
    · cases h
    · rw [packagePath_append] at h
      dsimp only at h
      rw [List.append_nil] at h
      split at h
      · cases h
      · next rs hrs =>
        cases h
        refine ⟨if_pos rfl, fun p hp => if_neg hp, ?_, mapM_dropRefs hrs⟩
        intro q
        simp
  · cases h

/-- C60: an existing file of the package whose name is not ignored can be deleted, if all files of all resources are
local files of the package. -/
theorem delete_succeeds_partial (d : Path) (ignore : Str → Bool) (pkg : Pkg) (rel : List Str) (c : Str)
    (hf : pkg.fs (d ++ rel) = some (.file c)) (hi : ignore ((d ++ rel).getLast?.getD []) = false)
    (hl : ∀ files ∈ pkg.resources, none ∉ files) : ∃ pkg', deleteFile d ignore pkg (some (d ++ rel)) = .ok pkg' := by
  unfold deleteFile
  simp only [hf, hi]
  rw [packagePath_append]
  have : ∃ rs, pkg.resources.mapM (dropRefs rel) = .ok rs := by
    generalize pkg.resources = rs at hl
    induction rs with
    | nil => exact ⟨[], rfl⟩
    | cons f rs ih =>
      obtain ⟨rs', h'⟩ := ih (fun x h => hl x (by simp [h]))
      rw [List.mapM_cons, h']
      unfold dropRefs
      rw [if_neg (hl f (by simp))]
      exact ⟨_, rfl⟩
  obtain ⟨rs, hrs⟩ := this
  simp only [List.append_nil, hrs]
  exact ⟨_, rfl⟩

/-- C60 is false in general: while a resource has a file that is not a local file of the package, no file can be
deleted. -/
theorem delete_fails (d : Path) (ignore : Str → Bool) (pkg : Pkg) (p : Path)
    (hl : ∃ files ∈ pkg.resources, none ∈ files) : ∃ e, deleteFile d ignore pkg (some p) = .error e := by
  unfold deleteFile
  dsimp only
  split
  · split
    · exact ⟨_, rfl⟩
    · split
      · exact ⟨_, rfl⟩
      · next rel _ =>
        have : ∃ e, pkg.resources.mapM (dropRefs rel) = .error e := by
          obtain ⟨files, hm, hn⟩ := hl
          generalize pkg.resources = rs at hm
          induction rs with
          | nil => cases hm
          | cons f rs ih =>
            rw [List.mapM_cons]
            rcases List.mem_cons.mp hm with rfl | hm
            · unfold dropRefs
              rw [if_pos hn]
              exact ⟨_, rfl⟩
            · cases hf : dropRefs rel f with
              | error e => exact ⟨e, rfl⟩
              | ok f' =>
                obtain ⟨e, he⟩ := ih hm
                rw [he]
                exact ⟨e, rfl⟩
        obtain ⟨e, he⟩ := this
        rw [he]
        exact ⟨e, rfl⟩
  · exact ⟨_, rfl⟩

theorem modify_mem {α : Type} {l : List α} {i : Nat} {f : α → α} {x : α} (h : x ∈ l.modify i f) : x ∈ l ∨ ∃ y ∈ l, x = f y := by
  induction l generalizing i with
  | nil => cases i <;> simp at h
  | cons a l ih =>
    cases i with
    | zero =>
      simp at h
      rcases h with h | h
      · exact .inr ⟨a, by simp, h⟩
      · exact .inl (by simp [h])
    | succ i =>
      simp at h
      rcases h with h | h
      · exact .inl (by simp [h])
      · rcases ih h with h | ⟨y, hy, e⟩
        · exact .inl (by simp [h])
        · exact .inr ⟨y, by simp [hy], e⟩

/-- C60: adding and deleting files keeps every referenced file of the package in the file table. -/
theorem files_accounted (d : Path) (ignore : Str → Bool) (pkg pkg' : Pkg) (i : Nat) (p : Option Path) (ha : Accounted pkg)
    (h : addFile d ignore pkg i p = .ok pkg' ∨ deleteFile d ignore pkg p = .ok pkg') : Accounted pkg' := by
  rcases h with h | h
  · unfold addFile at h
    split at h
    · cases h
      intro files hf rel hr
      rcases modify_mem hf with hf | ⟨y, hy, rfl⟩
      · exact ha files hf rel hr
      · exact ha y hy rel (by simpa using hr)
    · split at h
      · cases h
      · split at h
        · cases h
        · next rel0 _ =>
          split at h
          · cases h
          · cases h
            intro files hf rel hr
            have key : rel ∈ pkg.table ∨ rel = rel0 := by
              rcases modify_mem hf with hf | ⟨y, hy, rfl⟩
              · exact .inl (ha files hf rel hr)
              · simp at hr
                rcases hr with hr | hr
                · exact .inl (ha y hy rel hr)
                · exact .inr hr
            dsimp only
            split
            · next hm => rcases key with k | k; exact k; exact k ▸ hm
            · rcases key with k | k
              · simp [k]
              · simp [k]
  · unfold deleteFile at h
    split at h
    · cases h; exact ha
    · split at h
      · split at h
        · cases h
        · split at h
          · cases h
          · next rel0 _ =>
            split at h
            · cases h
            · next rs hrs =>
              cases h
              intro files hf rel hr
              dsimp only at hf
              rw [mapM_dropRefs hrs] at hf
              obtain ⟨y, hy, rfl⟩ := List.mem_map.mp hf
              simp at hr
              simp
              exact ⟨ha y hy rel hr.1, hr.2⟩
      · cases h

/-- A package with a manifest and a file. -/
def smallPkg : Pkg :=
  { table := [["a.txt".toList]], resources := [[some ["a.txt".toList]]],
    fs := fun p => if p = ["p".toList, "a.txt".toList] then some (.file "x".toList)
      else if p = ["p".toList, manifestName] then some (.file "m".toList) else none }

example : (deleteFile ["p".toList] (fun _ => false) smallPkg (some (["p".toList] ++ ["a.txt".toList]))).toOption.map
    (fun q => (q.table, q.resources)) = some ([], [[]]) := by decide +kernel
example : smallPkg.fs (["p".toList] ++ [manifestName]) = some (.file "m".toList) := by decide +kernel
example : Accounted smallPkg := by
  intro files hf rel hr
  simp [smallPkg] at hf
  subst hf
  simpa [smallPkg] using hr
example : ¬ BelowDir ["p".toList] ["q".toList, "a.txt".toList] := by
  rintro ⟨q, _, h⟩
  cases h

end Verif.Props
