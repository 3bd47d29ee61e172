import Verif.Model.ContentPackage
import Verif.Spec.Package

/-! Lemmas about imscp.py. -/

set_option linter.unusedVariables false

namespace Verif.CP

open Verif Verif.Py Verif.XmlUtils Verif.Spec

/-! ## Characters -/

theorem char_eq_of_toNat {c d : Char} (h : c.toNat = d.toNat) : c = d := by
  rw [← Char.ofNat_toNat c, ← Char.ofNat_toNat d, h]

theorem isLetter_iff (c : Char) : isLetter c = true ↔ Letter c := by
  simp [isLetter, Letter, Char.le_def, UInt32.le_iff_toNat_le, ← Char.toNat_val]
  omega

theorem isDigit_iff (c : Char) : isDigit c = true ↔ ('0' ≤ c ∧ c ≤ '9') := by
  simp [isDigit, Char.le_def, UInt32.le_iff_toNat_le, ← Char.toNat_val]

theorem isNmstart_iff (c : Char) : isNmstartChar c = true ↔ IdStart c := by
  simp [isNmstartChar, IdStart, isLetter_iff]

theorem isNmtoken_iff (c : Char) : isNmtokenChar c = true ↔ IdChar c := by
  simp [isNmtokenChar, IdChar, isLetter_iff, isDigit_iff, or_assoc]

theorem idStart_idChar {c : Char} (h : IdStart c) : IdChar c := by
  rcases h with h | h
  · exact .inl h
  · exact .inr (.inr (.inl h))

/-! ## Identifiers -/

theorem fixLoop_nonempty (s : Str) (c : Char) (acc : Str) (hacc : IdStart c)
    (ha : ∀ d ∈ acc, IdChar d) : ∃ t, fixLoop (c :: acc) s = c :: t ∧ ∀ d ∈ t, IdChar d := by
  induction s generalizing acc with
  | nil => exact ⟨acc, rfl, ha⟩
  | cons x s ih =>
    simp only [fixLoop]
    have : (decide ((c :: acc) = []) && !isNmstartChar (if isNmtokenChar x = true then x else '_')) = false := by
      simp
    simp only [this]
    apply ih
    intro d hd
    simp at hd
    rcases hd with hd | hd
    · exact ha d hd
    · subst hd
      split
      · rename_i h; exact (isNmtoken_iff x).1 h
      · exact .inr (.inr (.inl rfl))

theorem fixIdentifier_legal (s : Str) (h : s ≠ []) : LegalId (fixIdentifier s) := by
  cases s with
  | nil => exact absurd rfl h
  | cons c t =>
    unfold fixIdentifier
    simp only [fixLoop]
    generalize hc : (if isNmtokenChar c = true then c else '_') = c'
    have hc' : IdChar c' := by
      rw [← hc]; split
      · rename_i h; exact (isNmtoken_iff c).1 h
      · exact .inr (.inr (.inl rfl))
    by_cases hs : isNmstartChar c' = true
    · simp [hs]
      obtain ⟨u, hu, hd⟩ := fixLoop_nonempty t c' [] ((isNmstart_iff c').1 hs) (by simp)
      exact ⟨c', u, hu, (isNmstart_iff c').1 hs, hd⟩
    · simp [hs]
      have hI : IdStart 'I' := .inl (.inr (by decide))
      obtain ⟨u, hu, hd⟩ := fixLoop_nonempty t 'I' ['D', '_', c'] hI (by
        intro d hd
        simp at hd
        rcases hd with e | e | e
        · subst e; exact .inl (.inr (by decide))
        · subst e; exact .inr (.inr (.inl rfl))
        · subst e; exact hc')
      exact ⟨'I', u, hu, hI, hd⟩

theorem fixLoop_id (s : Str) (acc : Str) (ha : acc ≠ []) (hs : ∀ d ∈ s, IdChar d) :
    fixLoop acc s = acc ++ s := by
  induction s generalizing acc with
  | nil => simp [fixLoop]
  | cons x s ih =>
    simp only [fixLoop]
    have hx := (isNmtoken_iff x).2 (hs x (by simp))
    simp [hx, ha]
    rw [ih _ (by simp) (fun d hd => hs d (by simp [hd]))]
    simp

theorem fixIdentifier_of_legal (s : Str) (h : LegalId s) : fixIdentifier s = s := by
  obtain ⟨c, t, rfl, hc, ht⟩ := h
  unfold fixIdentifier
  have h1 := (isNmtoken_iff c).2 (idStart_idChar hc)
  have h2 := (isNmstart_iff c).2 hc
  simp [fixLoop, h1, h2]
  rw [fixLoop_id t [c] (by simp) ht]
  simp

theorem strNat_idChar (n : Nat) : ∀ d ∈ strNat n, IdChar d := by
  intro d hd
  have := List.all_eq_true.1 (strNat_all n) d hd
  exact .inr (.inl ((isDigit_iff d).1 this))

theorem idCandidate_legal (base : Str) (h : LegalId base) (i : Nat) : LegalId (idCandidate base i) := by
  unfold idCandidate
  split
  · exact h
  · obtain ⟨c, t, rfl, hc, ht⟩ := h
    refine ⟨c, t ++ '-' :: strNat i, by simp, hc, ?_⟩
    intro d hd
    simp at hd
    rcases hd with hd | hd | hd
    · exact ht d hd
    · subst hd; exact .inr (.inr (.inr (.inl rfl)))
    · exact strNat_idChar i d hd

theorem getUniqueID_fresh (ids : List Str) (base : Str) : getUniqueID ids base ∉ ids :=
  firstFree_not_mem _ _ _ _

theorem getUniqueID_legal (ids : List Str) (base : Str) (h : LegalId base) :
    LegalId (getUniqueID ids base) := by
  obtain ⟨k, _, hk, _⟩ := firstFree_spec ids (idCandidate base) (idCandidate_inj base) 0
  unfold getUniqueID
  rw [hk]
  exact idCandidate_legal base h k

theorem autoSetID_fresh {ids : List Str} {r : Resource} {i : Str} (h : autoSetID ids r = .ok i) :
    i ∉ ids := by
  unfold autoSetID at h
  split at h
  · split at h
    · injection h with h; subst h; exact getUniqueID_fresh _ _
    · cases h
  · injection h with h; subst h; exact getUniqueID_fresh _ _

theorem assignID_fresh {p : Pkg} {r : Resource} {i : Str} (h : assignID p r = .ok i) :
    i ∉ p.idSpace := by
  unfold assignID at h
  split at h
  · exact autoSetID_fresh h
  · split at h
    · exact autoSetID_fresh h
    · rename_i hc
      injection h with h; subst h
      simp at hc
      exact hc.2

/-! ## Splitting and joining -/

theorem split_ne_nil (sep : Char) (s : Str) : split sep s ≠ [] := by
  cases s with
  | nil => simp [split]
  | cons c t =>
    simp only [split]
    split
    · simp
    · split <;> simp

theorem split_of_not_mem (sep : Char) (s : Str) (h : sep ∉ s) : split sep s = [s] := by
  induction s with
  | nil => rfl
  | cons c t ih =>
    simp at h
    simp only [split]
    rw [if_neg (fun e => h.1 e.symm), ih h.2]

theorem split_append (sep : Char) (a b : Str) :
    split sep (a ++ sep :: b) = split sep a ++ split sep b := by
  induction a with
  | nil => simp [split]
  | cons c t ih =>
    simp only [List.cons_append, split]
    split
    · rw [ih]; rfl
    · rw [ih]
      cases hs : split sep t with
      | nil => exact absurd hs (split_ne_nil sep t)
      | cons p ps => simp

theorem join_split (sep : Char) (s : Str) : join sep (split sep s) = s := by
  induction s with
  | nil => rfl
  | cons c t ih =>
    simp only [split]
    split
    · rename_i h; subst h
      cases hs : split c t with
      | nil => exact absurd hs (split_ne_nil c t)
      | cons p ps => rw [hs] at ih; simp [join, ih]
    · cases hs : split sep t with
      | nil => exact absurd hs (split_ne_nil sep t)
      | cons p ps =>
        rw [hs] at ih
        cases ps with
        | nil => simp [join] at ih ⊢; exact ih
        | cons q qs => simp [join] at ih ⊢; exact ih

theorem split_no_sep (sep : Char) (s : Str) : ∀ p ∈ split sep s, sep ∉ p := by
  induction s with
  | nil => simp [split]
  | cons c t ih =>
    simp only [split]
    split
    · intro p hp
      simp at hp
      rcases hp with e | e
      · subst e; simp
      · exact ih p e
    · cases hs : split sep t with
      | nil => exact absurd hs (split_ne_nil sep t)
      | cons q qs =>
        rw [hs] at ih
        intro p hp
        simp at hp
        rcases hp with e | e
        · subst e
          have := ih q (by simp)
          simp [this]
          rename_i hne
          exact fun e => hne e.symm
        · exact ih p (by simp [e])

theorem mem_join {sep d : Char} {ps : List Str} (h : d ∈ join sep ps) : d = sep ∨ ∃ p ∈ ps, d ∈ p := by
  induction ps with
  | nil => simp [join] at h
  | cons p ps ih =>
    cases ps with
    | nil => simp [join] at h; exact .inr ⟨p, by simp, h⟩
    | cons q qs =>
      simp only [join, List.mem_append, List.mem_cons] at h
      rcases h with h | h | h
      · exact .inr ⟨p, by simp, h⟩
      · exact .inl h
      · rcases ih h with e | ⟨x, hx, hd⟩
        · exact .inl e
        · exact .inr ⟨x, List.mem_cons_of_mem _ hx, hd⟩

theorem mem_split {sep d : Char} {s p : Str} (hp : p ∈ split sep s) (hd : d ∈ p) : d ∈ s := by
  induction s generalizing p with
  | nil => simp [split] at hp; subst hp; cases hd
  | cons c t ih =>
    simp only [split] at hp
    split at hp
    · simp at hp
      rcases hp with e | e
      · subst e; cases hd
      · exact List.mem_cons_of_mem _ (ih e hd)
    · cases hs : split sep t with
      | nil => exact absurd hs (split_ne_nil sep t)
      | cons q qs =>
        rw [hs] at hp ih
        simp at hp
        rcases hp with e | e
        · subst e
          rcases List.mem_cons.1 hd with e | e
          · subst e; simp
          · exact List.mem_cons_of_mem _ (ih (by simp) e)
        · exact List.mem_cons_of_mem _ (ih (by simp [e]) hd)

/-! ## File names -/

theorem stem_ne_nil (f : Str) : stemOf f ≠ [] := by
  unfold stemOf
  split
  · split
    · decide
    · assumption
  · decide

theorem stem_no_dot (f : Str) : '.' ∉ stemOf f := by
  unfold stemOf
  split
  · rename_i s ps hs
    split
    · decide
    · exact split_no_sep '.' f s (by rw [hs]; simp)
  · decide

theorem strNat_no {c : Char} (hc : isDigit c = false) (n : Nat) : c ∉ strNat n := by
  intro h
  have := List.all_eq_true.1 (strNat_all n) c h
  rw [hc] at this; cases this

theorem idCandidate_stem_no_dot (f : Str) (i : Nat) : '.' ∉ idCandidate (stemOf f) i := by
  unfold idCandidate
  split
  · exact stem_no_dot f
  · simp [stem_no_dot f, strNat_no (c := '.') (by decide)]

theorem idCandidate_ne_nil (b : Str) (h : b ≠ []) (i : Nat) : idCandidate b i ≠ [] := by
  unfold idCandidate
  split
  · exact h
  · simp

theorem dropWhile_of_not_mem (a rest : Str) (h : '.' ∉ a) :
    (a ++ rest).dropWhile (fun c => decide (c ≠ '.')) = rest.dropWhile (fun c => decide (c ≠ '.')) := by
  induction a with
  | nil => rfl
  | cons c t ih =>
    simp at h
    simp only [List.cons_append, List.dropWhile_cons]
    rw [if_pos (by simp; exact fun e => h.1 e.symm)]
    exact ih h.2

theorem dropWhile_join (a : Str) (ps : List Str) (h : '.' ∉ a) :
    (join '.' (a :: ps)).dropWhile (fun c => decide (c ≠ '.')) = join '.' ([] :: ps) := by
  cases ps with
  | nil =>
    have := dropWhile_of_not_mem a [] h
    simpa [join] using this
  | cons p ps =>
    simp only [join]
    rw [dropWhile_of_not_mem a _ h]
    simp

/-- Every candidate keeps everything from the first dot on. -/
theorem fileCandidate_ext (f : Str) (i : Nat) :
    (fileCandidate f i).dropWhile (fun c => decide (c ≠ '.')) =
      f.dropWhile (fun c => decide (c ≠ '.')) := by
  unfold fileCandidate partsAfterStem
  rw [dropWhile_join _ _ (idCandidate_stem_no_dot f i)]
  conv => rhs; rw [← join_split '.' f]
  cases hs : split '.' f with
  | nil => exact absurd hs (split_ne_nil '.' f)
  | cons p ps =>
    rw [dropWhile_join p ps (split_no_sep '.' f p (by rw [hs]; simp))]
    rfl

theorem fileCandidate_chars (f : Str) (i : Nat) :
    ∀ d ∈ fileCandidate f i, d ∈ f ∨ d ∈ "file".toList ∨ d = '-' ∨ isDigit d = true ∨ d = '.' := by
  intro d hd
  unfold fileCandidate partsAfterStem at hd
  rcases mem_join hd with e | ⟨p, hp, hdp⟩
  · simp [e]
  · have hsp : ∀ p ∈ (split '.' f).tail, d ∈ p → d ∈ f := fun p hp hd =>
      mem_split (List.mem_of_mem_tail hp) hd
    rcases List.mem_cons.1 hp with e | e
    · subst e
      have hstem : d ∈ stemOf f → d ∈ f ∨ d ∈ "file".toList := by
        unfold stemOf
        split
        · rename_i s ps hs
          split
          · exact .inr
          · intro h; exact .inl (mem_split (by rw [hs]; simp) h)
        · exact .inr
      unfold idCandidate at hdp
      split at hdp
      · rcases hstem hdp with h | h
        · exact .inl h
        · exact .inr (.inl h)
      · simp at hdp
        rcases hdp with h | h | h
        · rcases hstem h with h | h
          · exact .inl h
          · exact .inr (.inl h)
        · simp [h]
        · right; right; right; left
          exact List.all_eq_true.1 (strNat_all i) d h
    · exact .inl (hsp p e hdp)

/-- Names handed out start with a character that is not a dot. -/
theorem fileCandidate_head (f : Str) (i : Nat) : ∃ c t, fileCandidate f i = c :: t ∧ c ≠ '.' := by
  have hne := idCandidate_ne_nil (stemOf f) (stem_ne_nil f) i
  have hnd := idCandidate_stem_no_dot f i
  unfold fileCandidate
  cases hc : idCandidate (stemOf f) i with
  | nil => exact absurd hc hne
  | cons c t =>
    rw [hc] at hnd
    simp at hnd
    cases hp : partsAfterStem f with
    | nil => exact ⟨c, t, by simp [join], fun e => hnd.1 e.symm⟩
    | cons p ps => exact ⟨c, t ++ '.' :: join '.' (p :: ps), by simp [join], fun e => hnd.1 e.symm⟩

theorem name_eq_candidate (F : List (Str × Hash)) (f : Str) (h : Hash) :
    ∃ k, (getUniqueFileName F f h).1 = fileCandidate f k := by
  obtain ⟨k, _, hk, _⟩ := firstFree_spec (blockedNames F h) (fileCandidate f) (fileCandidate_inj f) 0
  exact ⟨k, hk⟩

theorem name_not_blocked (F : List (Str × Hash)) (f : Str) (h : Hash) :
    (getUniqueFileName F f h).1 ∉ blockedNames F h := firstFree_not_mem _ _ _ _

theorem mem_dictSet_self {β} (F : List (Str × β)) (k : Str) (v : β) : (k, v) ∈ dictSet F k v := by
  simp [dictSet]

theorem mem_dictSet_of_ne {β} {F : List (Str × β)} {k k' : Str} {v v' : β} (h : (k', v') ∈ F)
    (hne : k' ≠ k) : (k', v') ∈ dictSet F k v := by
  simp [dictSet, h, hne]

/-- A name already in the table is only returned for an equal truthy fingerprint. -/
theorem name_reuse {F : List (Str × Hash)} {f : Str} {h h0 : Hash} {n : Str} (hm : (n, h0) ∈ F)
    (hn : (getUniqueFileName F f h).1 = n) : h = h0 ∧ truthy h0 = true := by
  have hb := name_not_blocked F f h
  rw [hn] at hb
  have : ¬ (!(truthy h && decide (h0 = h))) = true := by
    intro hc
    apply hb
    unfold blockedNames
    rw [List.mem_map]
    exact ⟨(n, h0), List.mem_filter.2 ⟨hm, hc⟩, rfl⟩
  simp at this
  obtain ⟨h1, h2⟩ := this
  subst h2
  exact ⟨rfl, h1⟩

theorem mem_after {F : List (Str × Hash)} {f : Str} {h h0 : Hash} {n : Str} (hm : (n, h0) ∈ F) :
    (n, h0) ∈ (getUniqueFileName F f h).2 := by
  by_cases hn : (getUniqueFileName F f h).1 = n
  · have := name_reuse hm hn
    rw [← this.1]
    have e : (getUniqueFileName F f h).2 = dictSet F (getUniqueFileName F f h).1 h := rfl
    rw [e, hn]
    exact mem_dictSet_self _ _ _
  · exact mem_dictSet_of_ne hm (fun e => hn e.symm)

theorem runNames_reuse (qs : List (Str × Hash)) (F : List (Str × Hash)) (n : Str) (h0 : Hash)
    (hm : (n, h0) ∈ F) (j : Nat) (hj : (runNames F qs)[j]? = some n) :
    ∃ f, qs[j]? = some (f, h0) ∧ truthy h0 = true := by
  induction qs generalizing F j with
  | nil => simp [runNames] at hj
  | cons q qs ih =>
    cases j with
    | zero =>
      simp [runNames] at hj
      obtain ⟨h1, h2⟩ := name_reuse hm hj
      exact ⟨q.1, by simp [← h1], h2⟩
    | succ j =>
      simp [runNames] at hj
      obtain ⟨f, h1, h2⟩ := ih _ (mem_after hm) j hj
      exact ⟨f, by simpa using h1, h2⟩

theorem runNames_spec (qs : List (Str × Hash)) (F : List (Str × Hash)) (n : Str) (i j : Nat)
    (hij : i < j) (hi : (runNames F qs)[i]? = some n) (hj : (runNames F qs)[j]? = some n) :
    ∃ f g h, qs[i]? = some (f, h) ∧ qs[j]? = some (g, h) ∧ truthy h = true := by
  induction qs generalizing F i j with
  | nil => simp [runNames] at hi
  | cons q qs ih =>
    cases j with
    | zero => omega
    | succ j =>
      cases i with
      | zero =>
        simp [runNames] at hi hj
        have hm : (n, q.2) ∈ (getUniqueFileName F q.1 q.2).2 := by
          have e : (getUniqueFileName F q.1 q.2).2 = dictSet F (getUniqueFileName F q.1 q.2).1 q.2 := rfl
          rw [e, hi]
          exact mem_dictSet_self _ _ _
        obtain ⟨f, h1, h2⟩ := runNames_reuse qs _ n q.2 hm j hj
        exact ⟨q.1, f, q.2, by simp, by simpa using h1, h2⟩
      | succ i =>
        simp [runNames] at hi hj
        obtain ⟨f, g, h, h1, h2, h3⟩ := ih _ i j (by omega) hi hj
        exact ⟨f, g, h, by simpa using h1, by simpa using h2, h3⟩

/-! ## Encoding -/

/-- The character left after encoding and decoding: characters above 255 become `?`. -/
def latin (c : Char) : Char := if c.toNat > 255 then '?' else c

theorem pchar_le (c : Char) (h : isPchar c = true) : c.toNat ≤ 255 := by
  simp [isPchar, isLetter, isDigit] at h
  rcases h with (((h | h) | h) | h | h | h | h | h | h | h | h | h | h | h | h | h | h)
  all_goals first | omega | (subst h; decide)

theorem decode_encodeSegChar' (c : Char) (out : Str) :
    (encodeSegChar c).foldl decodeStep (out, none) = (out ++ [latin c], none) := by
  by_cases h : c.toNat ≤ 255
  · rw [decode_encodeSegChar c h]
    simp [latin]; omega
  · have hp : isPchar c = false := by
      cases hpc : isPchar c with
      | false => rfl
      | true => exact absurd (pchar_le c hpc) h
    have hl : latin c = '?' := by simp [latin]; omega
    simp [encodeSegChar, hp, hl, show c.toNat > 255 by omega, decodeStep]

theorem decode_encode (s : Str) : decodePathSegment (encodePathSegment s) = s.map latin := by
  have key : ∀ s : Str, ∀ out,
      (encodePathSegment s).foldl decodeStep (out, none) = (out ++ s.map latin, none) := by
    intro s
    induction s with
    | nil => intro out; simp [encodePathSegment]
    | cons c t ih =>
      intro out
      have he : encodePathSegment (c :: t) = encodeSegChar c ++ encodePathSegment t := by
        simp [encodePathSegment]
      rw [he, List.foldl_append, decode_encodeSegChar' c, ih]
      simp
  unfold decodePathSegment
  rw [key s []]
  simp

theorem latin_eq_slash {c : Char} (h : latin c = '/') : c = '/' := by
  unfold latin at h; split at h
  · exact absurd h (by decide)
  · exact h

theorem encode_of_pchar (s : Str) (h : ∀ c ∈ s, isPchar c = true) : encodePathSegment s = s := by
  induction s with
  | nil => rfl
  | cons c t ih =>
    have : encodePathSegment (c :: t) = encodeSegChar c ++ encodePathSegment t := by
      simp [encodePathSegment]
    rw [this, ih (fun d hd => h d (by simp [hd]))]
    simp [encodeSegChar, h c (by simp)]

theorem encode_no_slash (s : Str) : '/' ∉ encodePathSegment s := by
  intro hm
  simp only [encodePathSegment, List.mem_flatMap] at hm
  obtain ⟨c, _, hd⟩ := hm
  exact absurd (encodeSegChar_safe c _ hd) (by decide)

theorem encode_head (c : Char) (t : Str) (h : c ≠ '.') : (encodePathSegment (c :: t)).head? ≠ some '.' := by
  have : encodePathSegment (c :: t) = encodeSegChar c ++ encodePathSegment t := by
    simp [encodePathSegment]
  rw [this]
  unfold encodeSegChar
  split
  · simp [h]
  · split <;> simp

/-! ## Paths -/

theorem pathJoin_plain (cp d : Str) (hcp : cp ≠ []) (hl : cp.getLast? ≠ some '/') (hd : '/' ∉ d) :
    pathJoin cp d = cp ++ '/' :: d := by
  unfold pathJoin
  have : d.head? ≠ some '/' := by
    intro h
    apply hd
    cases d with
    | nil => cases h
    | cons x t => simp at h; simp [h]
  simp [this, hcp, hl]

theorem takeWhile_rev (d a : Str) (h : '/' ∉ d) :
    (d.reverse ++ '/' :: a).takeWhile (fun c => decide (c ≠ '/')) = d.reverse ∧
    (d.reverse ++ '/' :: a).dropWhile (fun c => decide (c ≠ '/')) = '/' :: a := by
  have : ∀ x : Str, '/' ∉ x →
      (x ++ '/' :: a).takeWhile (fun c => decide (c ≠ '/')) = x ∧
      (x ++ '/' :: a).dropWhile (fun c => decide (c ≠ '/')) = '/' :: a := by
    intro x hx
    induction x with
    | nil => simp
    | cons c t ih =>
      simp at hx
      have := ih hx.2
      have hc : ¬ c = '/' := fun e => hx.1 e.symm
      simp [hc]
      simpa using this
  exact this _ (by simpa using h)

theorem rstrip_of_last (a : Str) (hl : a.getLast? ≠ some '/') : rstripSlash (a ++ ['/']) = a := by
  unfold rstripSlash
  simp
  rcases List.eq_nil_or_concat a with h | ⟨b, x, h⟩
  · subst h; rfl
  · subst h
    simp at hl
    simp [hl]

theorem pathSplit_plain (a d : Str) (ha : a ≠ []) (hl : a.getLast? ≠ some '/') (hd : '/' ∉ d) :
    pathSplit (a ++ '/' :: d) = (a, d) := by
  have h := takeWhile_rev d a.reverse hd
  unfold pathSplit
  simp only [List.reverse_append, List.reverse_cons, List.append_assoc, List.singleton_append]
  rw [h.1, h.2]
  simp only [List.reverse_cons, List.reverse_reverse]
  have hn : ¬ ((a ++ ['/']).all (fun c => decide (c = '/')) = true) := by
    intro hall
    rcases List.eq_nil_or_concat a with e | ⟨b, x, e⟩
    · exact ha e
    · subst e
      simp at hall hl
      exact hl hall.2
  rw [if_pos ⟨by simp, hn⟩, rstrip_of_last a hl]

theorem pathSplit_tail_no_slash (p : Str) : '/' ∉ (pathSplit p).2 := by
  unfold pathSplit
  simp only [List.mem_reverse]
  intro h
  have : ∀ l : Str, '/' ∉ l.takeWhile (fun c => decide (c ≠ '/')) := by
    intro l
    induction l with
    | nil => simp
    | cons c t ih =>
      simp only [List.takeWhile_cons]
      split
      · rename_i hc
        simp at hc
        simp
        exact ⟨fun e => hc e.symm, by simpa using ih⟩
      · simp
  exact this _ h

theorem location_append (a b : Str) : location (a ++ '/' :: b) = (split '/' b).foldl walk (location a) := by
  unfold location
  rw [split_append, List.foldl_append]

theorem location_append_plain (a d : Str) (hd : '/' ∉ d) : location (a ++ '/' :: d) = walk (location a) d := by
  rw [location_append, split_of_not_mem _ _ hd]; rfl

end Verif.CP
