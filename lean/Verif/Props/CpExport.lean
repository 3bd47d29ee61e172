import Verif.Props.CpFiles

/-! # Exporting a package and expanding the archive (C59) -/

namespace Verif.Props

open Verif Verif.Py Verif.Cp Verif.Spec

set_option linter.unusedVariables false

theorem expandZip_append (d : Path) (dec : Str → Option Str) (a b : List (Str × Str)) (fs : FS)
    (h : (expandZip d dec a fs).2 = .ok ()) :
    expandZip d dec (a ++ b) fs =
      ((expandZip d dec a fs).1 ++ (expandZip d dec b (applyOps fs (expandZip d dec a fs).1)).1,
        (expandZip d dec b (applyOps fs (expandZip d dec a fs).1)).2) := by
  induction a generalizing fs with
  | nil => rfl
  | cons x rest ih =>
    obtain ⟨n, c⟩ := x
    rw [expandZip] at h
    dsimp only at h
    rw [List.cons_append, expandZip, expandZip]
    dsimp only
    cases hr : (expandEntry d dec n c fs).2 with
    | error e => rw [hr] at h; cases h
    | ok u =>
      rw [hr] at h
      dsimp only at h ⊢
      rw [ih _ h]
      simp [applyOps_append]

/-- The path of a directory as it is written in archives. -/
def baseStr (enc : Str → Str) (bs : List Str) : Str := bs.flatMap fun b => enc b ++ ['/']

/-- Encoding and decoding of file names fit together. -/
def Codec (enc : Str → Str) (dec : Str → Option Str) : Prop :=
  dec [] = some [] ∧ ∀ s, FileName s → dec (enc s) = some s ∧ '/' ∉ enc s

theorem split_base {enc : Str → Str} {dec : Str → Option Str} (hc : Codec enc dec) (bs : List Str)
    (hb : ∀ b ∈ bs, FileName b) (s : Str) : split '/' (baseStr enc bs ++ s) = bs.map enc ++ split '/' s := by
  induction bs with
  | nil => rfl
  | cons b bs ih =>
    have : baseStr enc (b :: bs) ++ s = enc b ++ '/' :: (baseStr enc bs ++ s) := by simp [baseStr]
    rw [this, CP.split_append, CP.split_of_not_mem _ _ (hc.2 b (hb b (by simp))).2, ih (fun x h => hb x (by simp [h]))]
    rfl

theorem joinNorm_name (p : Path) (s : Str) (h : FileName s) : joinNorm p s = p ++ [s] := by
  rw [joinNorm_of_no_slash _ _ h.2.2.2]
  unfold normStep
  rw [if_neg (by rintro (e | e); exact h.1 e; exact h.2.1 e), if_neg h.2.2.1]

theorem walkEntry_dir (d : Path) {enc : Str → Str} {dec : Str → Option Str} (hc : Codec enc dec) (n : Str)
    (hn : FileName n) (tail : List Str) (q : List Str) (fs : FS) (hd : fs (d ++ q) = some .dir) :
    walkEntry d dec (enc n :: tail) (d ++ q) fs = walkEntry d dec tail (d ++ (q ++ [n])) fs := by
  rw [walkEntry]
  have h1 : needDir fs (d ++ q) = .ok [] := by unfold needDir; rw [if_pos hd]
  rw [h1]
  dsimp only
  rw [(hc.2 n hn).1]
  dsimp only
  rw [joinNorm_name _ _ hn]
  have : d ++ q ++ [n] = d ++ (q ++ [n]) := by simp
  rw [this, if_neg (not_none_of_inside ⟨_, rfl⟩)]
  rfl

theorem walkEntry_dirs (d : Path) {enc : Str → Str} {dec : Str → Option Str} (hc : Codec enc dec) (bs : List Str)
    (hb : ∀ b ∈ bs, FileName b) (tail : List Str) (q : List Str) (fs : FS)
    (hd : ∀ k, fs (d ++ (q ++ bs.take k)) = some .dir) :
    walkEntry d dec (bs.map enc ++ tail) (d ++ q) fs = walkEntry d dec tail (d ++ (q ++ bs)) fs := by
  induction bs generalizing q with
  | nil => simp
  | cons b bs ih =>
    have h0 : fs (d ++ q) = some .dir := by simpa using hd 0
    rw [List.map_cons, List.cons_append, walkEntry_dir d hc b (hb b (by simp)) _ q fs h0,
      ih (fun x h => hb x (by simp [h])) (q ++ [b]) (fun k => by simpa using hd (k + 1))]
    simp

theorem expand_file (d : Path) {enc : Str → Str} {dec : Str → Option Str} (hc : Codec enc dec) (bs : List Str)
    (hb : ∀ b ∈ bs, FileName b) (n c : Str) (hn : FileName n) (fs : FS) (hd : ∀ k, fs (d ++ bs.take k) = some .dir)
    (hfree : fs (d ++ (bs ++ [n])) = none) :
    expandEntry d dec (baseStr enc bs ++ enc n) c fs = ([.write (d ++ (bs ++ [n])) c], .ok ()) := by
  have hw : walkEntry d dec (split '/' (baseStr enc bs ++ enc n)) d fs = ([], .ok (d ++ (bs ++ [n]))) := by
    rw [split_base hc bs hb, CP.split_of_not_mem _ _ (hc.2 n hn).2]
    have := walkEntry_dirs d hc bs hb [enc n] [] fs (by simpa using hd)
    rw [List.append_nil] at this
    rw [this, List.nil_append, walkEntry_dir d hc n hn _ _ fs (by simpa using hd bs.length)]
    rfl
  unfold expandEntry
  dsimp only
  rw [hw]
  dsimp only
  have h1 : applyOps fs [] (d ++ (bs ++ [n])) = none := hfree
  rw [h1]
  dsimp only
  have h2 : (d ++ (bs ++ [n])).dropLast = d ++ bs := by
    rw [← List.append_assoc, List.dropLast_concat]
  rw [h2, if_pos (show applyOps fs [] (d ++ bs) = some .dir from (by simpa using hd bs.length : fs (d ++ bs) = some .dir))]
  rfl

theorem expand_dir (d : Path) {enc : Str → Str} {dec : Str → Option Str} (hc : Codec enc dec) (bs : List Str)
    (hb : ∀ b ∈ bs, FileName b) (n : Str) (hn : FileName n) (fs : FS) (hd : ∀ k, fs (d ++ bs.take k) = some .dir)
    (hfree : fs (d ++ (bs ++ [n])) = none) :
    expandEntry d dec (baseStr enc bs ++ enc n ++ ['/']) [] fs = ([.mkdir (d ++ (bs ++ [n]))], .ok ()) := by
  have h2 : (d ++ (bs ++ [n])).dropLast = d ++ bs := by
    rw [← List.append_assoc, List.dropLast_concat]
  have hw : walkEntry d dec (split '/' (baseStr enc bs ++ enc n ++ ['/'])) d fs =
      ([.mkdir (d ++ (bs ++ [n]))], .ok (d ++ (bs ++ [n]))) := by
    rw [List.append_assoc, split_base hc bs hb, show enc n ++ ['/'] = enc n ++ '/' :: [] from rfl, CP.split_append,
      CP.split_of_not_mem _ _ (hc.2 n hn).2]
    have := walkEntry_dirs d hc bs hb ([enc n] ++ split '/' []) [] fs (by simpa using hd)
    rw [List.append_nil] at this
    rw [this, List.nil_append, List.cons_append, walkEntry_dir d hc n hn _ _ fs (by simpa using hd bs.length)]
    show walkEntry d dec [[]] _ fs = _
    rw [walkEntry]
    have h1 : needDir fs (d ++ (bs ++ [n])) = .ok [.mkdir (d ++ (bs ++ [n]))] := by
      unfold needDir
      rw [if_neg (by rw [hfree]; simp), if_pos ⟨hfree, by rw [h2]; simpa using hd bs.length⟩]
    rw [h1]
    dsimp only
    rw [hc.1]
    dsimp only
    have h3 : joinNorm (d ++ (bs ++ [n])) [] = d ++ (bs ++ [n]) := by
      rw [joinNorm_of_no_slash _ _ (by simp)]
      unfold normStep
      rw [if_pos (.inl rfl)]
    rw [h3, if_neg (not_none_of_inside ⟨_, rfl⟩)]
    rfl
  unfold expandEntry
  dsimp only
  rw [hw]
  dsimp only
  have h1 : applyOps fs [.mkdir (d ++ (bs ++ [n]))] (d ++ (bs ++ [n])) = some .dir := by
    simp [applyOps, applyOp]
  rw [h1]
  rfl

theorem find_visible_none (ignore : Str → Bool) (f : Forest) (n : Str) (q : List Str) (h : n ∉ names f) :
    find (visible ignore f) (n :: q) = none := by
  induction f with
  | nil => rfl
  | file m c next ih =>
    simp [names] at h
    unfold visible
    split
    · exact ih h.2
    · rw [find, if_neg h.1]; exact ih h.2
  | dir m ch next _ ih =>
    simp [names] at h
    unfold visible
    split
    · exact ih h.2
    · rw [find, if_neg h.1]; exact ih h.2

theorem path_ne_take (d : Path) (bs : List Str) (n : Str) (q : List Str) (k : Nat) :
    d ++ bs.take k ≠ d ++ (bs ++ n :: q) := by
  intro e
  have := congrArg List.length e
  simp at this
  omega

theorem expand_export_aux (d : Path) {enc : Str → Str} {dec : Str → Option Str} (hc : Codec enc dec) (ignore : Str → Bool)
    (f : Forest) (hf : WellFormed f) (bs : List Str) (hb : ∀ b ∈ bs, FileName b) (fs : FS)
    (hd : ∀ k, fs (d ++ bs.take k) = some .dir) (hfree : ∀ n ∈ names f, ∀ q, fs (d ++ (bs ++ n :: q)) = none) :
    ∃ ops, expandZip d dec (exportEntries enc ignore (baseStr enc bs) f) fs = (ops, .ok ()) ∧
      (∀ n q, n ∈ names f → applyOps fs ops (d ++ (bs ++ n :: q)) = find (visible ignore f) (n :: q)) ∧
      ∀ p, (∀ n q, n ∈ names f → p ≠ d ++ (bs ++ n :: q)) → applyOps fs ops p = fs p := by
  induction f generalizing bs fs with
  | nil => exact ⟨[], rfl, fun n q h => by simp [names] at h, fun p h => rfl⟩
  | file n c next ih =>
    obtain ⟨hn, hnn, hwf⟩ := hf
    have hsub : ∀ m ∈ names next, m ∈ names (.file n c next) := fun m h => by simp [names, h]
    by_cases hi : ignore n = true
    · obtain ⟨ops, h1, h2, h3⟩ := ih hwf bs hb fs hd (fun m hm => hfree m (hsub m hm))
      refine ⟨ops, by simp [exportEntries, hi, h1], ?_, ?_⟩
      · intro m q hm
        rw [visible, if_pos hi]
        by_cases hmn : m ∈ names next
        · exact h2 m q hmn
        · rw [find_visible_none ignore next m q hmn, h3, hfree m hm]
          intro m' q' hm' e
          have := List.append_cancel_left (List.append_cancel_left e)
          cases this
          exact hmn hm'
      · exact fun p hp => h3 p fun m q hm => hp m q (hsub m hm)
    · have hop := expand_file d hc bs hb n c hn fs hd (hfree n (by simp [names]) [])
      let fs1 := applyOps fs [.write (d ++ (bs ++ [n])) c]
      have hfs1 : ∀ p, p ≠ d ++ (bs ++ [n]) → fs1 p = fs p := fun p hp =>
        applyOps_of_not_mem _ _ _ (fun op ho => by simp at ho; subst ho; exact fun e => hp e.symm)
      obtain ⟨ops, h1, h2, h3⟩ := ih hwf bs hb fs1
        (fun k => by rw [hfs1 _ (path_ne_take d bs n [] k)]; exact hd k)
        (fun m hm q => by
          rw [hfs1]
          · exact hfree m (hsub m hm) q
          · intro e
            have := List.append_cancel_left (List.append_cancel_left e)
            cases this
            exact hnn hm)
      refine ⟨.write (d ++ (bs ++ [n])) c :: ops, ?_, ?_, ?_⟩
      · simp only [exportEntries, hi]
        show expandZip d dec ((baseStr enc bs ++ enc n, c) :: exportEntries enc ignore (baseStr enc bs) next) fs = _
        rw [expandZip]
        dsimp only
        rw [hop]
        dsimp only
        rw [show applyOps fs [.write (d ++ (bs ++ [n])) c] = fs1 from rfl, h1]
        rfl
      · intro m q hm
        show applyOps fs1 ops _ = _
        rw [visible, if_neg hi]
        by_cases hmn : m ∈ names next
        · rw [h2 m q hmn, find, if_neg (fun (e : m = n) => hnn (e ▸ hmn))]
        · have : m = n := by
            simp [names] at hm
            rcases hm with h | h
            · exact h
            · exact absurd h hmn
          subst this
          rw [h3, find, if_pos rfl]
          · by_cases hq : q = []
            · subst hq
              rw [if_pos rfl]
              simp [fs1, applyOps, applyOp]
            · rw [if_neg hq, hfs1, hfree m hm]
              intro e
              have := List.append_cancel_left (List.append_cancel_left e)
              simp at this
              exact hq this
          · intro m' q' hm' e
            have := List.append_cancel_left (List.append_cancel_left e)
            cases this
            exact hnn hm'
      · intro p hp
        show applyOps fs1 ops _ = _
        rw [h3 p (fun m q hm => hp m q (hsub m hm)), hfs1 p (hp n [] (by simp [names]))]
  | dir n ch next ihc ih =>
    obtain ⟨hn, hnn, hwc, hwf⟩ := hf
    have hsub : ∀ m ∈ names next, m ∈ names (.dir n ch next) := fun m h => by simp [names, h]
    by_cases hi : ignore n = true
    · obtain ⟨ops, h1, h2, h3⟩ := ih hwf bs hb fs hd (fun m hm => hfree m (hsub m hm))
      refine ⟨ops, by simp [exportEntries, hi, h1], ?_, ?_⟩
      · intro m q hm
        rw [visible, if_pos hi]
        by_cases hmn : m ∈ names next
        · exact h2 m q hmn
        · rw [find_visible_none ignore next m q hmn, h3, hfree m hm]
          intro m' q' hm' e
          have := List.append_cancel_left (List.append_cancel_left e)
          cases this
          exact hmn hm'
      · exact fun p hp => h3 p fun m q hm => hp m q (hsub m hm)
    · have hop := expand_dir d hc bs hb n hn fs hd (hfree n (by simp [names]) [])
      let fs1 := applyOps fs [.mkdir (d ++ (bs ++ [n]))]
      have hfs1 : ∀ p, p ≠ d ++ (bs ++ [n]) → fs1 p = fs p := fun p hp =>
        applyOps_of_not_mem _ _ _ (fun op ho => by simp at ho; subst ho; exact fun e => hp e.symm)
      have hself : fs1 (d ++ (bs ++ [n])) = some .dir := by simp [fs1, applyOps, applyOp]
      have hb' : ∀ b ∈ bs ++ [n], FileName b := by
        intro b hbm
        rcases List.mem_append.mp hbm with h | h
        · exact hb b h
        · simp at h; subst h; exact hn
      obtain ⟨ops1, g1, g2, g3⟩ := ihc hwc (bs ++ [n]) hb' fs1
        (fun k => by
          by_cases hk : k ≤ bs.length
          · rw [List.take_append_of_le_length hk, hfs1 _ (path_ne_take d bs n [] k)]
            exact hd k
          · rw [List.take_of_length_le (by simp; omega)]
            exact hself)
        (fun m hm q => by
          rw [hfs1]
          · have := hfree n (by simp [names]) (m :: q)
            simpa using this
          · intro e
            have := List.append_cancel_left e
            simp at this)
      have hout : ∀ p, (∀ q, p ≠ d ++ (bs ++ n :: q)) → applyOps fs1 ops1 p = fs p := by
        intro p hp
        rw [g3 p (fun m q hm e => hp (m :: q) (by simpa using e)), hfs1 p (hp [])]
      obtain ⟨ops, h1, h2, h3⟩ := ih hwf bs hb (applyOps fs1 ops1)
        (fun k => by rw [hout _ (fun q => path_ne_take d bs n q k)]; exact hd k)
        (fun m hm q => by
          rw [hout]
          · exact hfree m (hsub m hm) q
          · intro q' e
            have := List.append_cancel_left (List.append_cancel_left e)
            cases this
            exact hnn hm)
      refine ⟨.mkdir (d ++ (bs ++ [n])) :: (ops1 ++ ops), ?_, ?_, ?_⟩
      · simp only [exportEntries, hi]
        have hbase : baseStr enc bs ++ enc n ++ ['/'] = baseStr enc (bs ++ [n]) := by simp [baseStr]
        show expandZip d dec ((baseStr enc bs ++ enc n ++ ['/'], []) ::
          (exportEntries enc ignore (baseStr enc bs ++ enc n ++ ['/']) ch ++ exportEntries enc ignore (baseStr enc bs) next)) fs = _
        rw [expandZip]
        dsimp only
        rw [hop]
        dsimp only
        rw [show applyOps fs [.mkdir (d ++ (bs ++ [n]))] = fs1 from rfl, hbase,
          expandZip_append _ _ _ _ _ (by rw [g1]), g1]
        dsimp only
        rw [h1]
        rfl
      · intro m q hm
        show applyOps fs1 (ops1 ++ ops) _ = _
        rw [applyOps_append, visible, if_neg hi]
        by_cases hmn : m ∈ names next
        · rw [h2 m q hmn, find, if_neg (fun (e : m = n) => hnn (e ▸ hmn))]
        · have : m = n := by
            simp [names] at hm
            rcases hm with h | h
            · exact h
            · exact absurd h hmn
          subst this
          rw [h3, find, if_pos rfl]
          · cases q with
            | nil =>
              rw [g3, hself]
              · cases visible ignore ch <;> rfl
              · intro m' q' _ e
                have := List.append_cancel_left e
                simp at this
            | cons m' q' =>
              by_cases hm' : m' ∈ names ch
              · rw [← g2 m' q' hm']
                simp
              · rw [find_visible_none ignore ch m' q' hm', g3, hfs1, hfree m hm]
                · intro e
                  have := List.append_cancel_left e
                  simp at this
                · intro m'' q'' hm'' e
                  have := List.append_cancel_left e
                  simp at this
                  exact hm' (this.1 ▸ hm'')
          · intro m' q' hm' e
            have := List.append_cancel_left (List.append_cancel_left e)
            cases this
            exact hnn hm'
      · intro p hp
        show applyOps fs1 (ops1 ++ ops) _ = _
        rw [applyOps_append, h3 p (fun m q hm => hp m q (hsub m hm)), hout p (fun q => hp n q (by simp [names]))]

/-- C59: expanding an exported package into an empty directory succeeds and gives exactly the files and directories of
the package that are not ignored, with their contents. -/
theorem expand_export (d : Path) (enc : Str → Str) (dec : Str → Option Str) (hc : Codec enc dec) (ignore : Str → Bool)
    (f : Forest) (hf : WellFormed f) (fs : FS) (hd : fs d = some .dir) (hempty : ∀ p, BelowDir d p → fs p = none) :
    (expandZip d dec (exportEntries enc ignore [] f) fs).2 = .ok () ∧
      (∀ p, applyOps fs (expandZip d dec (exportEntries enc ignore [] f) fs).1 (d ++ p) = find (visible ignore f) p) ∧
      ∀ p, ¬ BelowDir d p → applyOps fs (expandZip d dec (exportEntries enc ignore [] f) fs).1 p = fs p := by
  obtain ⟨ops, h1, h2, h3⟩ := expand_export_aux d hc ignore f hf [] (by simp) fs (by simpa using hd)
    (fun n _ q => hempty _ ⟨n :: q, by simp, by simp⟩)
  rw [show baseStr enc [] = [] from rfl] at h1
  rw [h1]
  refine ⟨rfl, ?_, ?_⟩
  · intro p
    cases p with
    | nil =>
      rw [List.append_nil, h3, hd]
      · cases visible ignore f <;> rfl
      · intro n q _ e
        have := congrArg List.length e
        simp at this
    | cons n q =>
      by_cases hn : n ∈ names f
      · exact h2 n q hn
      · rw [find_visible_none ignore f n q hn, h3, hempty _ ⟨n :: q, by simp, rfl⟩]
        intro m q' hm e
        have := List.append_cancel_left e
        cases this
        exact hn hm
  · intro p hp
    exact h3 p fun n q _ e => hp ⟨n :: q, by simp, by simpa using e⟩

/-- The package of the example: an ignored file, a directory with a file, and an empty directory. -/
def exampleForest : Forest :=
  .file ".x".toList "h".toList (.dir "a".toList (.file "b".toList "t".toList .nil) (.dir "c".toList .nil .nil))

example : Codec id some := ⟨rfl, fun s h => ⟨rfl, h.2.2.2⟩⟩
example : WellFormed exampleForest := by
  simp [exampleForest, WellFormed, FileName, names]
example : oneDir ["tmp".toList] = some .dir := by decide +kernel
example : find (visible (fun s => s.head? = some '.') exampleForest) ["a".toList, "b".toList] = some (.file "t".toList) ∧
    find (visible (fun s => s.head? = some '.') exampleForest) [".x".toList] = none := by decide +kernel

end Verif.Props
