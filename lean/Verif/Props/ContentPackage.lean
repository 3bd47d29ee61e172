import Verif.Lemmas.ContentPackage

/-! # C06–C11, C31: content packages (imscp.py) -/

set_option linter.unusedVariables false

namespace Verif.Props

open Verif Verif.Py Verif.XmlUtils Verif.CP Verif.Spec

/-! ## C08: resource identifiers are unique -/

/-- Invariant of a package under construction. -/
def PkgInv (p : Pkg) : Prop :=
  (p.resources.map (·.id)).Nodup ∧ (∀ r ∈ p.resources, ∃ i, r.id = some i ∧ i ∈ p.idSpace)

theorem addResource_inv {p p' : Pkg} {r : Resource} (hp : PkgInv p) (h : addResource p r = .ok p') :
    PkgInv p' ∧ ∃ i, assignID p r = .ok i ∧ p'.resources = p.resources ++ [{ r with id := some i }] ∧
      p'.idSpace = i :: p.idSpace.filter (· ≠ i) := by
  unfold addResource at h
  split at h
  · rename_i i hi
    injection h with h
    subst h
    have hf := assignID_fresh hi
    refine ⟨⟨?_, ?_⟩, i, hi, rfl, rfl⟩
    · simp only [List.map_append, List.map_cons, List.map_nil]
      rw [List.nodup_append]
      refine ⟨hp.1, by simp, ?_⟩
      intro a ha b hb hab
      simp at hb
      rw [List.mem_map] at ha
      obtain ⟨x, hx, hxa⟩ := ha
      obtain ⟨j, hj, hm⟩ := hp.2 x hx
      rw [hab, hb, hj] at hxa
      injection hxa with e
      exact hf (e ▸ hm)
    · intro x hx
      simp at hx
      rcases hx with hx | hx
      · obtain ⟨j, hj, hm⟩ := hp.2 x hx
        refine ⟨j, hj, ?_⟩
        by_cases e : j = i
        · simp [e]
        · simp [hm, e]
      · subst hx
        exact ⟨i, rfl, by simp⟩
  · cases h

theorem addAll_inv (rs : List Resource) (p p' : Pkg) (hp : PkgInv p) (h : addAll p rs = .ok p') :
    PkgInv p' ∧ p'.resources.length = p.resources.length + rs.length := by
  induction rs generalizing p with
  | nil => simp [addAll] at h; subst h; exact ⟨hp, by simp⟩
  | cons r rs ih =>
    simp only [addAll] at h
    split at h
    · rename_i q hq
      obtain ⟨h1, i, _, h2, _⟩ := addResource_inv hp hq
      obtain ⟨h3, h4⟩ := ih q h1 h
      refine ⟨h3, ?_⟩
      rw [h4, h2]
      simp; omega
    · cases h

/-- **C08.** Adding any sequence of resources to an empty package: every resource is there, each has
an identifier, and no two have the same one. -/
theorem resource_ids_unique (rs : List Resource) (p : Pkg) (h : addAll {} rs = .ok p) :
    (p.resources.map (·.id)).Nodup ∧ (∀ r ∈ p.resources, r.id ≠ none) ∧
      p.resources.length = rs.length := by
  obtain ⟨⟨h1, h2⟩, h3⟩ := addAll_inv rs {} p ⟨by simp, by simp⟩ h
  refine ⟨h1, ?_, by simpa using h3⟩
  intro r hr
  obtain ⟨i, hi, _⟩ := h2 r hr
  simp [hi]

/-- Three resources asking for clashing identifiers, one of them a generated-looking one. -/
example : addAll {} [⟨some "a".toList, some ⟨some ["a".toList]⟩⟩, ⟨some "a-1".toList, none⟩,
      ⟨some "a".toList, some ⟨some ["a".toList]⟩⟩, ⟨none, none⟩, ⟨some "resource".toList, none⟩] =
    .ok ⟨["resource-1".toList, "resource".toList, "a-2".toList, "a-1".toList, "a".toList],
         [⟨some "a".toList, some ⟨some ["a".toList]⟩⟩, ⟨some "a-1".toList, none⟩,
          ⟨some "a-2".toList, some ⟨some ["a".toList]⟩⟩, ⟨some "resource".toList, none⟩,
          ⟨some "resource-1".toList, none⟩]⟩ := by decide +kernel

/-- **C08.** A resource whose requested (non-empty) identifier is not in use keeps it. -/
theorem free_resource_id_kept (rs : List Resource) (p : Pkg) (h : addAll {} rs = .ok p)
    (r : Resource) (i : Str) (hi : r.id = some i) (hne : i ≠ [])
    (hfree : ∀ q ∈ p.resources, q.id ≠ some i) :
    ∃ p', addResource p r = .ok p' ∧ p'.resources = p.resources ++ [r] := by
  have hsp : ∀ (rs : List Resource) (p p' : Pkg), addAll p rs = .ok p' →
      (∀ j ∈ p.idSpace, ∃ q ∈ p.resources, q.id = some j) →
      (∀ j ∈ p'.idSpace, ∃ q ∈ p'.resources, q.id = some j) := by
    intro rs
    induction rs with
    | nil => intro p p' h hp; simp [addAll] at h; subst h; exact hp
    | cons r rs ih =>
      intro p p' h hp
      simp only [addAll] at h
      split at h
      · rename_i q hq
        apply ih q p' h
        unfold addResource at hq
        split at hq
        · rename_i k hk
          injection hq with hq
          subst hq
          intro j hj
          simp at hj
          rcases hj with hj | ⟨hj, _⟩
          · subst hj; exact ⟨{ r with id := some j }, by simp, rfl⟩
          · obtain ⟨q, h1, h2⟩ := hp j hj
            exact ⟨q, by simp [h1], h2⟩
        · cases hq
      · cases h
  have hni : i ∉ p.idSpace := by
    intro hm
    obtain ⟨q, hq, he⟩ := hsp rs {} p h (by simp) i hm
    exact hfree q hq he
  refine ⟨{ idSpace := i :: p.idSpace.filter (· ≠ i), resources := p.resources ++ [r] }, ?_, rfl⟩
  unfold addResource assignID
  rw [hi]
  simp [hne, hni]
  rw [← hi]

/-- **C08.** Adding never fails when every resource has no metadata or metadata with at least one
identifier; otherwise the only failure is a `TypeError` (an identifier taken from nothing). -/
theorem addAll_succeeds (rs : List Resource) (p : Pkg)
    (h : ∀ r ∈ rs, ∀ l, r.lom = some l → ∃ e es, l.general = some (e :: es)) :
    ∃ p', addAll p rs = .ok p' := by
  have hs : ∀ (es : List Str) (x : Str), ∃ y, suggestGeneral (some x) es = some y := by
    intro es
    induction es with
    | nil => intro x; exact ⟨x, rfl⟩
    | cons e es ih =>
      intro x
      simp only [suggestGeneral]
      split
      · exact ⟨_, rfl⟩
      · exact ih _
  induction rs generalizing p with
  | nil => exact ⟨p, rfl⟩
  | cons r rs ih =>
    have ha : ∃ i, autoSetID p.idSpace r = .ok i := by
      unfold autoSetID
      cases hl : r.lom with
      | none => exact ⟨_, rfl⟩
      | some l =>
        obtain ⟨e, es, he⟩ := h r (by simp) l hl
        have : ∃ y, l.suggestXMLID = some y := by
          unfold Lom.suggestXMLID
          rw [he]
          simp only [suggestGeneral]
          split
          · exact ⟨_, rfl⟩
          · exact hs es _
        obtain ⟨y, hy⟩ := this
        simp [hy]
    have : ∃ q, addResource p r = .ok q := by
      unfold addResource assignID
      obtain ⟨i, hi⟩ := ha
      split <;> rename_i heq
      · exact ⟨_, rfl⟩
      · split at heq
        · rw [hi] at heq; cases heq
        · split at heq
          · rw [hi] at heq; cases heq
          · cases heq
    obtain ⟨q, hq⟩ := this
    simp only [addAll, hq]
    exact ih q (fun r hr => h r (by simp [hr]))

/-- The failure that the hypothesis of `addAll_succeeds` excludes does occur: a resource without
identifier whose metadata has no identifier. -/
theorem addAll_type_error : addAll {} [⟨none, some ⟨none⟩⟩] = .error .typeError := by decide +kernel

/-! ## C09: identifiers are legal -/

/-- **C09 (part 1).** `SetIdentifier` produces a legal identifier for every non-empty string. -/
theorem set_identifier_legal (s : Str) (h : s ≠ []) : LegalId (fixIdentifier s) :=
  fixIdentifier_legal s h

example : fixIdentifier "1é b".toList = "ID_1__b".toList := by decide

/-- **C09 (part 2).** Fixing is idempotent, for every string. -/
theorem fix_identifier_idempotent (s : Str) : fixIdentifier (fixIdentifier s) = fixIdentifier s := by
  cases s with
  | nil => rfl
  | cons c t => exact fixIdentifier_of_legal _ (fixIdentifier_legal _ (by simp))

/-- **C09 (part 3).** Legal identifiers are left unchanged. -/
theorem fix_identifier_keeps_legal (s : Str) (h : LegalId s) : fixIdentifier s = s :=
  fixIdentifier_of_legal s h

/-- **C09.** Every resource of a package has a legal identifier, provided that requested
identifiers went through `SetIdentifier` (legal or missing) and the metadata of each resource has an
identifier with at least one usable character (an ASCII letter, digit, `_`, `-` or `.`).
What is missing for the full claim is false: see `generated_id_empty`. -/
theorem resource_ids_legal_partial (rs : List Resource) (p : Pkg) (h : addAll {} rs = .ok p)
    (hid : ∀ r ∈ rs, r.id = none ∨ r.id = some [] ∨ ∃ i, r.id = some i ∧ LegalId i)
    (hlom : ∀ r ∈ rs, ∀ l, r.lom = some l →
      ∃ es e c, l.general = some es ∧ e ∈ es ∧ c ∈ e ∧ IdChar c ∧ c ≠ ':') :
    ∀ q ∈ p.resources, ∃ i, q.id = some i ∧ LegalId i := by
  have hres : LegalId "resource".toList := by
    have : fixIdentifier "resource".toList = "resource".toList := by decide
    rw [← this]
    exact fixIdentifier_legal _ (by decide)
  have hs : ∀ (es : List Str) (x : Option Str), (∃ e ∈ es, suggestEntry e ≠ []) →
      ∃ y, suggestGeneral x es = some y ∧ y ≠ [] := by
    intro es
    induction es with
    | nil => rintro x ⟨e, he, _⟩; cases he
    | cons a es ih =>
      intro x hx
      simp only [suggestGeneral]
      split
      · rename_i hne; exact ⟨_, rfl, hne⟩
      · rename_i hne
        apply ih
        obtain ⟨e, he, hne'⟩ := hx
        rcases List.mem_cons.1 he with e1 | e1
        · subst e1; exact absurd hne' hne
        · exact ⟨e, e1, hne'⟩
  have step : ∀ (rs : List Resource) (p p' : Pkg), addAll p rs = .ok p' →
      (∀ r ∈ rs, r.id = none ∨ r.id = some [] ∨ ∃ i, r.id = some i ∧ LegalId i) →
      (∀ r ∈ rs, ∀ l, r.lom = some l →
        ∃ es e c, l.general = some es ∧ e ∈ es ∧ c ∈ e ∧ IdChar c ∧ c ≠ ':') →
      (∀ q ∈ p.resources, ∃ i, q.id = some i ∧ LegalId i) →
      (∀ q ∈ p'.resources, ∃ i, q.id = some i ∧ LegalId i) := by
    intro rs
    induction rs with
    | nil => intro p p' h _ _ hp; simp [addAll] at h; subst h; exact hp
    | cons r rs ih =>
      intro p p' h hid hlom hp
      simp only [addAll] at h
      split at h
      · rename_i q hq
        refine ih q p' h (fun r hr => hid r (by simp [hr])) (fun r hr => hlom r (by simp [hr])) ?_
        unfold addResource at hq
        split at hq
        · rename_i k hk
          injection hq with hq
          subst hq
          have hauto : ∀ k, autoSetID p.idSpace r = .ok k → LegalId k := by
            intro k hk
            unfold autoSetID at hk
            split at hk
            · rename_i l hl
              obtain ⟨es, e, c, h1, h2, h3, h4, h5⟩ := hlom r (by simp) l hl
              have hne : suggestEntry e ≠ [] := by
                intro hn
                have hm : c ∈ suggestEntry e := by
                  unfold suggestEntry
                  rw [List.mem_filter]
                  exact ⟨h3, by simp [(isNmtoken_iff c).2 h4, h5]⟩
                rw [hn] at hm; cases hm
              obtain ⟨y, hy, hyn⟩ := hs es none ⟨e, h2, hne⟩
              have : l.suggestXMLID = some y := by
                unfold Lom.suggestXMLID; rw [h1]; exact hy
              rw [this] at hk
              injection hk with hk
              subst hk
              exact getUniqueID_legal _ _ (fixIdentifier_legal y hyn)
            · injection hk with hk
              subst hk
              exact getUniqueID_legal _ _ hres
          have hkl : LegalId k := by
            unfold assignID at hk
            split at hk
            · exact hauto k hk
            · rename_i i hi
              split at hk
              · exact hauto k hk
              · rename_i hc
                injection hk with hk
                subst hk
                simp at hc
                rcases hid r (by simp) with e | e | ⟨i', e, hl⟩
                · rw [hi] at e; cases e
                · rw [hi] at e; injection e with e; exact absurd e hc.1
                · rw [hi] at e; injection e with e; subst e; exact hl
          intro x hx
          simp at hx
          rcases hx with hx | hx
          · exact hp x hx
          · subst hx; exact ⟨k, rfl, hkl⟩
        · cases hq
      · cases h
  exact step rs {} p h hid hlom (by simp)

/-- The hypotheses of `resource_ids_legal_partial` hold for two items both called `1a`. -/
example : addAll {} [⟨some (fixIdentifier "1a".toList), some ⟨some ["1a".toList]⟩⟩,
      ⟨some (fixIdentifier "1a".toList), some ⟨some ["1a".toList]⟩⟩] =
    .ok ⟨["ID_1a-1".toList, "ID_1a".toList],
      [⟨some "ID_1a".toList, some ⟨some ["1a".toList]⟩⟩,
       ⟨some "ID_1a-1".toList, some ⟨some ["1a".toList]⟩⟩]⟩ := by decide +kernel

/-- **C09 refuted.** Two items called `é`: the second one's resource gets the empty identifier. -/
theorem generated_id_empty : ∃ p, addAll {} [⟨some (fixIdentifier "é".toList), some ⟨some ["é".toList]⟩⟩,
      ⟨some (fixIdentifier "é".toList), some ⟨some ["é".toList]⟩⟩] = .ok p ∧
    (p.resources.map (·.id)) = [some "_".toList, some []] ∧ ¬ LegalId [] := by
  refine ⟨⟨[[], "_".toList], [⟨some "_".toList, some ⟨some ["é".toList]⟩⟩,
    ⟨some [], some ⟨some ["é".toList]⟩⟩]⟩, by decide +kernel, by decide +kernel, ?_⟩
  rintro ⟨c, t, h, _⟩
  cases h

/-! ## C10: file names are not reused for different content -/

/-- **C10.** In any sequence of requests on one package (in any state of its file table), a name
returned by two of them was requested both times with the same non-empty fingerprint. -/
theorem file_names_not_reused (fileSpace : List (Str × Hash)) (qs : List (Str × Hash)) (n : Str)
    (i j : Nat) (hij : i < j) (hi : (runNames fileSpace qs)[i]? = some n)
    (hj : (runNames fileSpace qs)[j]? = some n) :
    ∃ f g s, qs[i]? = some (f, some s) ∧ qs[j]? = some (g, some s) ∧ s ≠ [] := by
  obtain ⟨f, g, h, h1, h2, h3⟩ := runNames_spec qs fileSpace n i j hij hi hj
  cases h with
  | none => simp [truthy] at h3
  | some s => exact ⟨f, g, s, h1, h2, by intro e; subst e; simp [truthy] at h3⟩

/-- Requests that meet each other's generated names. -/
example : runNames [] [("a.gif".toList, none), ("a-1.gif".toList, some "h".toList),
      ("a.gif".toList, some "h".toList), (".gif".toList, none), ("a.gif".toList, none)] =
    ["a.gif".toList, "a-1.gif".toList, "a-1.gif".toList, "file.gif".toList, "a-2.gif".toList] := by
  decide +kernel

/-- **C10.** A name already in the package (with fingerprint `h0`) is only ever handed out again for
that same non-empty fingerprint. -/
theorem existing_file_name_protected (fileSpace : List (Str × Hash)) (n : Str) (h0 : Hash)
    (hm : (n, h0) ∈ fileSpace) (qs : List (Str × Hash)) (j : Nat)
    (hj : (runNames fileSpace qs)[j]? = some n) :
    ∃ f s, h0 = some s ∧ s ≠ [] ∧ qs[j]? = some (f, some s) := by
  obtain ⟨f, h1, h2⟩ := runNames_reuse qs fileSpace n h0 hm j hj
  cases h0 with
  | none => simp [truthy] at h2
  | some s => exact ⟨f, s, rfl, by intro e; subst e; simp [truthy] at h2, h1⟩

/-- **C10.** The extension (everything from the first dot on) of the requested name is preserved. -/
theorem file_extension_preserved (fileSpace : List (Str × Hash)) (f : Str) (h : Hash) :
    ((getUniqueFileName fileSpace f h).1).dropWhile (· ≠ '.') = f.dropWhile (· ≠ '.') := by
  obtain ⟨k, hk⟩ := name_eq_candidate fileSpace f h
  rw [hk]
  exact fileCandidate_ext f k

/-- **C10.** A requested name that is not in use, and that does not start with a dot, is returned
as it is. -/
theorem free_file_name_kept (fileSpace : List (Str × Hash)) (f : Str) (h : Hash)
    (hfree : ∀ x, (f, x) ∉ fileSpace) (hne : f ≠ []) (hdot : f.head? ≠ some '.') :
    (getUniqueFileName fileSpace f h).1 = f := by
  have hc : fileCandidate f 0 = f := by
    unfold fileCandidate idCandidate partsAfterStem stemOf
    cases hs : split '.' f with
    | nil => exact absurd hs (split_ne_nil '.' f)
    | cons s ps =>
      have hj := join_split '.' f
      rw [hs] at hj
      have hsn : s ≠ [] := by
        intro e
        subst e
        cases ps with
        | nil => simp [join] at hj; exact hne hj
        | cons q qs => rw [← hj] at hdot; simp [join] at hdot
      simp [hsn]
      exact hj
  have := firstFree_of_free (blockedNames fileSpace h) (fileCandidate f) (fileCandidate_inj f) 0
    (by
      rw [hc]
      intro hm
      unfold blockedNames at hm
      rw [List.mem_map] at hm
      obtain ⟨x, hx, hxe⟩ := hm
      have := (List.mem_filter.1 hx).1
      exact hfree x.2 (by rw [← hxe]; exact this))
  show firstFree _ _ _ 0 = f
  rw [this, hc]

/-! ## C06: different files get different hrefs -/

/-- The names handed out for a sequence of items and media files. -/
theorem runFiles_eq (F : List (Str × Hash)) (ops : List FileOp) :
    runFiles F ops = List.zipWith FileOp.href ops (runNames F (ops.map (fun o => (o.request, none)))) := by
  induction ops generalizing F with
  | nil => rfl
  | cons op ops ih => simp [runFiles, runNames, ih]

theorem runNames_length (F : List (Str × Hash)) (qs : List (Str × Hash)) :
    (runNames F qs).length = qs.length := by
  induction qs generalizing F with
  | nil => rfl
  | cons q qs ih => simp [runNames, ih]

theorem runNames_mem (F : List (Str × Hash)) (qs : List (Str × Hash)) (i : Nat) (n : Str)
    (h : (runNames F qs)[i]? = some n) : ∃ f h, qs[i]? = some (f, h) ∧ ∃ k, n = fileCandidate f k := by
  induction qs generalizing F i with
  | nil => simp [runNames] at h
  | cons q qs ih =>
    cases i with
    | zero =>
      simp [runNames] at h
      obtain ⟨k, hk⟩ := name_eq_candidate F q.1 q.2
      exact ⟨q.1, q.2, by simp, k, by rw [← h, hk]⟩
    | succ i =>
      simp [runNames] at h
      simpa using ih _ i h

theorem encode_inj {a b : Str} (ha : ∀ c ∈ a, c.toNat ≤ 255) (hb : ∀ c ∈ b, c.toNat ≤ 255)
    (h : encodePathSegment a = encodePathSegment b) : a = b := by
  have hl : ∀ s : Str, (∀ c ∈ s, c.toNat ≤ 255) → s.map latin = s := by
    intro s hs
    induction s with
    | nil => rfl
    | cons c t ih =>
      have h1 := hs c (by simp)
      simp [latin, show ¬ c.toNat > 255 by omega]
      exact ih (fun d hd => hs d (by simp [hd]))
  have := congrArg decodePathSegment h
  rw [decode_encode, decode_encode, hl a ha, hl b hb] at this
  exact this

theorem idChar_pchar {c : Char} (h : IdChar c) : isPchar c = true := by
  have := (isNmtoken_iff c).2 h
  simp [isNmtokenChar] at this
  simp [isPchar]
  have hl : ∀ b, isLetter c = b → isLetter c = b := fun _ h => h
  revert this
  generalize isLetter c = x
  generalize isDigit c = y
  intro this
  rcases this with h | h | h | h | h | h <;> simp [h]

theorem candidate_le {f : Str} (hf : ∀ c ∈ f, c.toNat ≤ 255) (k : Nat) :
    ∀ c ∈ fileCandidate f k, c.toNat ≤ 255 := by
  intro c hc
  rcases fileCandidate_chars f k c hc with h | h | h | h | h
  · exact hf c h
  · have hx : ∀ d ∈ "file".toList, d.toNat ≤ 255 := by decide
    exact hx c h
  · subst h; decide
  · simp [isDigit] at h; omega
  · subst h; decide

theorem candidate_pchar {f : Str} (hf : ∀ c ∈ f, isPchar c = true) (k : Nat) :
    ∀ c ∈ fileCandidate f k, isPchar c = true := by
  intro c hc
  rcases fileCandidate_chars f k c hc with h | h | h | h | h
  · exact hf c h
  · have hx : ∀ d ∈ "file".toList, isPchar d = true := by decide
    exact hx c h
  · subst h; decide
  · simp [isPchar, h]
  · subst h; decide

/-- An item whose resource identifier is legal, or a media file whose name only uses 8-bit
characters. -/
def PlainOp : FileOp → Prop
  | .item id => LegalId id
  | .media b u => ∀ c ∈ (FileOp.media b u).request, c.toNat ≤ 255

/-- **C06.** Whatever items and media files are added to a package, and in whatever order, no two of
them get the same href — provided file names use 8-bit characters only (without that the claim is
false, see `hrefs_collide`). -/
theorem hrefs_distinct_partial (ops : List FileOp) (hops : ∀ op ∈ ops, PlainOp op) :
    (runFiles [] ops).Nodup := by
  unfold List.Nodup
  rw [List.pairwise_iff_getElem]
  intro i j hi hj hij heq0
  have heq : (runFiles [] ops)[i]? = (runFiles [] ops)[j]? := by
    rw [List.getElem?_eq_getElem hi, List.getElem?_eq_getElem hj, heq0]
  clear heq0 hi
  rw [runFiles_eq] at heq hj
  generalize hqs : ops.map (fun o => (o.request, (none : Hash))) = qs at heq hj
  have hlen : (runNames [] qs).length = ops.length := by rw [runNames_length, ← hqs]; simp
  have hj' : j < ops.length := by
    simpa [List.length_zipWith, hlen] using hj
  have hi' : i < ops.length := by omega
  have hget : ∀ k, k < ops.length → ∃ op n, ops[k]? = some op ∧ (runNames [] qs)[k]? = some n ∧
      (List.zipWith FileOp.href ops (runNames [] qs))[k]? = some (op.href n) := by
    intro k hk
    refine ⟨ops[k], (runNames [] qs)[k]'(by omega), by simp [hk], by simp, ?_⟩
    rw [List.getElem?_zipWith]
    simp [hk, hlen]
  obtain ⟨op1, n1, ho1, hn1, hz1⟩ := hget i hi'
  obtain ⟨op2, n2, ho2, hn2, hz2⟩ := hget j hj'
  rw [hz1, hz2] at heq
  injection heq with heq
  have hname : ∀ (k : Nat) (op : FileOp) (n : Str), ops[k]? = some op → (runNames [] qs)[k]? = some n →
      op.href n = encodePathSegment n ∧ ∀ c ∈ n, c.toNat ≤ 255 := by
    intro k op n hop hn
    obtain ⟨f, h, hq, m, hm⟩ := runNames_mem [] qs k n hn
    have hf : f = op.request := by
      rw [← hqs, List.getElem?_map, hop] at hq
      simp at hq
      exact hq.1.symm
    have hpl := hops op (List.mem_of_getElem? hop)
    cases op with
    | item id =>
      have hid : ∀ c ∈ f, isPchar c = true := by
        obtain ⟨c0, t, rfl, hc0, ht⟩ := hpl
        intro c hc
        rw [hf] at hc
        simp only [FileOp.request, List.mem_append, List.mem_cons] at hc
        rcases hc with (hc | hc) | hc
        · subst hc; exact idChar_pchar (idStart_idChar hc0)
        · exact idChar_pchar (ht c hc)
        · simp at hc; rcases hc with hc | hc | hc | hc <;> subst hc <;> decide
      have hp := candidate_pchar hid m
      rw [← hm] at hp
      exact ⟨(encode_of_pchar n hp).symm, fun c hc => pchar_le c (hp c hc)⟩
    | media b u =>
      refine ⟨rfl, ?_⟩
      rw [hm]
      apply candidate_le
      rw [hf]
      exact hpl
  obtain ⟨e1, l1⟩ := hname i op1 n1 ho1 hn1
  obtain ⟨e2, l2⟩ := hname j op2 n2 ho2 hn2
  rw [e1, e2] at heq
  have hnn := encode_inj l1 l2 heq
  subst hnn
  obtain ⟨f, g, s, h1, h2, h3⟩ := file_names_not_reused [] qs n1 i j hij hn1 hn2
  rw [← hqs, List.getElem?_map, ho1] at h1
  simp at h1

example : runFiles [] [.item "q1".toList, .media "/d/in.xml".toList "pics/x%20y.png".toList,
      .media "/d/in.xml".toList "x%20y.png".toList, .media "/d/in.xml".toList "q1.xml".toList] =
    ["q1.xml".toList, "x%20y.png".toList, "x%20y-1.png".toList, "q1-1.xml".toList] := by
  decide +kernel

/-- **C06 refuted.** Two media files with names outside Latin-1 get the same href, so the second one
written replaces the first. -/
theorem hrefs_collide : runFiles [] [.media "/d/in.xml".toList "中.png".toList,
      .media "/d/in.xml".toList "国.png".toList] = ["?.png".toList, "?.png".toList] := by
  decide +kernel

/-! ## C07: writing stays inside the package directory -/

/-- A segment of an href that is interpreted harmlessly: `.`, `..`, or one whose decoded form is a
single ordinary path component. -/
def SafeSegment (seg : Str) : Prop :=
  seg = ['.'] ∨ seg = ['.', '.'] ∨
    (decodePathSegment seg ≠ [] ∧ '/' ∉ decodePathSegment seg ∧ decodePathSegment seg ≠ ['.', '.'])

/-- **C07.** A path produced for an href denotes a location inside the package directory, for every
directory path not ending in a slash and every href all of whose segments are safe, whatever the
sequence of `.` and `..` segments is. -/
theorem dump_stays_inside_partial (cp uri : Str) (hcp : cp ≠ []) (hl : cp.getLast? ≠ some '/')
    (hseg : ∀ s ∈ split '/' uri, SafeSegment s) : Inside cp (resolveCPURI cp uri) := by
  have key : ∀ (segs : List Str) (ds : List Str),
      (∀ s ∈ segs, SafeSegment s) → (∀ d ∈ ds, d ≠ [] ∧ '/' ∉ d ∧ d ≠ ['.', '.']) →
      ∃ es : List Str, (∀ d ∈ es, d ≠ [] ∧ '/' ∉ d ∧ d ≠ ['.', '.']) ∧
        segs.foldl resolveStep (cp ++ ds.flatMap (fun d => '/' :: d), ds.length) =
          (cp ++ es.flatMap (fun d => '/' :: d), es.length) := by
    intro segs
    induction segs with
    | nil => intro ds _ hds; exact ⟨ds, hds, rfl⟩
    | cons s segs ih =>
      intro ds hs hds
      have hs' : ∀ x ∈ segs, SafeSegment x := fun x hx => hs x (by simp [hx])
      have hlast : ∀ ds : List Str, (∀ d ∈ ds, d ≠ [] ∧ '/' ∉ d ∧ d ≠ ['.', '.']) →
          (cp ++ ds.flatMap (fun d => '/' :: d)).getLast? ≠ some '/' := by
        intro ds hds
        rcases List.eq_nil_or_concat ds with e | ⟨b, x, e⟩
        · subst e; simpa using hl
        · subst e
          have := hds x (by simp)
          rcases List.eq_nil_or_concat x with e | ⟨y, c, e⟩
          · exact absurd e this.1
          · subst e
            have h2 := this.2.1
            simp at h2
            have e3 : cp ++ (b.concat (y.concat c)).flatMap (fun d => '/' :: d) =
                (cp ++ b.flatMap (fun d => '/' :: d) ++ '/' :: y) ++ [c] := by simp
            rw [e3, List.getLast?_concat]
            intro e
            injection e with e
            exact h2.2 e.symm
      simp only [List.foldl_cons]
      have hstep : ∀ st, resolveStep st s = if s = ['.'] then st
        else if s = ['.', '.'] then
          if st.2 ≠ 0 then ((pathSplit st.1).1, st.2 - 1) else st
        else (pathJoin st.1 (decodePathSegment s), st.2 + 1) := fun _ => rfl
      rw [hstep]
      by_cases h1 : s = ['.']
      · simp only [h1, if_true]; exact ih ds hs' hds
      · rw [if_neg h1]
        by_cases h2 : s = ['.', '.']
        · rw [if_pos h2]
          rcases List.eq_nil_or_concat ds with e | ⟨b, x, e⟩
          · subst e
            simp only [List.length_nil, ne_eq, not_true_eq_false, if_false]
            exact ih [] hs' hds
          · subst e
            have hb : ∀ d ∈ b, d ≠ [] ∧ '/' ∉ d ∧ d ≠ ['.', '.'] := fun d hd => hds d (by simp [hd])
            have hx := hds x (by simp)
            have e1 : cp ++ (b.concat x).flatMap (fun d => '/' :: d) =
                (cp ++ b.flatMap (fun d => '/' :: d)) ++ '/' :: x := by simp
            rw [e1]
            simp only [pathSplit_plain _ x (by simp [hcp]) (hlast b hb) hx.2.1]
            rw [if_pos (by simp)]
            have e2 : (b.concat x).length - 1 = b.length := by simp
            rw [e2]
            exact ih b hs' hb
        · rw [if_neg h2]
          have h3 : decodePathSegment s ≠ [] ∧ '/' ∉ decodePathSegment s ∧
              decodePathSegment s ≠ ['.', '.'] := by
            rcases hs s (by simp) with e | e | e
            · exact absurd e h1
            · exact absurd e h2
            · exact e
          simp only []
          rw [pathJoin_plain _ _ (by simp [hcp]) (hlast ds hds) h3.2.1]
          have := ih (ds ++ [decodePathSegment s]) hs' (by
            intro d hd
            simp at hd
            rcases hd with hd | hd
            · exact hds d hd
            · subst hd; exact h3)
          simpa [List.flatMap_append, List.append_assoc] using this
  obtain ⟨es, hes, hr⟩ := key (split '/' uri) [] hseg (by simp)
  unfold resolveCPURI
  simp only [List.flatMap_nil, List.append_nil, List.length_nil] at hr
  rw [hr]
  have hloc : ∀ (es : List Str) (base : Str), (∀ d ∈ es, d ≠ [] ∧ '/' ∉ d ∧ d ≠ ['.', '.']) →
      Inside cp base → Inside cp (base ++ es.flatMap (fun d => '/' :: d)) := by
    intro es
    induction es with
    | nil => intro base _ h; simpa using h
    | cons x es ih =>
      intro base hes hb
      have hx := hes x (by simp)
      have e1 : base ++ (x :: es).flatMap (fun d => '/' :: d) =
          (base ++ '/' :: x) ++ es.flatMap (fun d => '/' :: d) := by simp
      rw [e1]
      apply ih _ (fun d hd => hes d (by simp [hd]))
      obtain ⟨rest, hrest⟩ := hb
      unfold Inside
      rw [location_append_plain _ _ hx.2.1, hrest]
      unfold walk
      split
      · exact ⟨rest, rfl⟩
      · rw [if_neg hx.2.2]
        exact ⟨rest ++ [x], by simp⟩
  exact hloc es cp hes ⟨[], by simp⟩

example : resolveCPURI "/out/cp".toList "../a/./../../b%20c/d.png".toList = "/out/cp/b c/d.png".toList := by
  decide

/-- **C07 refuted.** Three relative hrefs that are written outside `/out/cp`: an encoded `..`, an
encoded absolute path, and empty segments that allow later `..` segments to climb. -/
theorem dump_escapes :
    location (resolveCPURI "/out/cp".toList "%2e%2e/x".toList) = ["out".toList, "x".toList] ∧
    location (resolveCPURI "/out/cp".toList "%2fetc/x".toList) = ["etc".toList, "x".toList] ∧
    location (resolveCPURI "/out/cp".toList "//../../../x".toList) = ["out".toList, "x".toList] ∧
    ¬ Inside "/out/cp".toList (resolveCPURI "/out/cp".toList "%2e%2e/x".toList) := by
  refine ⟨by decide, by decide, by decide, ?_⟩
  rintro ⟨rest, h⟩
  have h1 : location (resolveCPURI "/out/cp".toList "%2e%2e/x".toList) = ["out".toList, "x".toList] := by
    decide
  have h2 : location "/out/cp".toList = ["out".toList, "cp".toList] := by decide
  rw [h1, h2] at h
  simp at h

/-- The path written for a file name handed out by the package is exactly
`directory/decoded-name`. -/
theorem generated_path (cp f : Str) (k : Nat) (hcp : cp ≠ []) (hl : cp.getLast? ≠ some '/')
    (hf : '/' ∉ f) :
    resolveCPURI cp (encodePathSegment (fileCandidate f k)) = cp ++ '/' :: (fileCandidate f k).map latin := by
  have hns : '/' ∉ fileCandidate f k := by
    intro h
    rcases fileCandidate_chars f k _ h with h | h | h | h | h
    · exact hf h
    · exact absurd h (by decide)
    · exact absurd h (by decide)
    · exact absurd h (by decide)
    · exact absurd h (by decide)
  obtain ⟨c, t, hc, hd⟩ := fileCandidate_head f k
  have hh : (encodePathSegment (fileCandidate f k)).head? ≠ some '.' := by
    rw [hc]; exact encode_head c t hd
  unfold resolveCPURI
  rw [split_of_not_mem _ _ (encode_no_slash _)]
  simp only [List.foldl_cons, List.foldl_nil]
  unfold resolveStep
  rw [if_neg (by intro e; rw [e] at hh; exact hh rfl), if_neg (by intro e; rw [e] at hh; exact hh rfl)]
  simp only []
  rw [decode_encode, pathJoin_plain _ _ hcp hl]
  intro hm
  rw [List.mem_map] at hm
  obtain ⟨d, hd1, hd2⟩ := hm
  have := latin_eq_slash hd2
  subst this
  exact hns hd1

theorem request_no_slash (op : FileOp) (h : PlainOp op) : '/' ∉ op.request := by
  cases op with
  | item id =>
    obtain ⟨c, t, rfl, hc, ht⟩ := h
    have hn : ∀ d, IdChar d → d ≠ '/' := by
      intro d hd e
      subst e
      have := (isNmtoken_iff '/').2 hd
      exact absurd this (by decide)
    simp only [FileOp.request, List.cons_append, List.mem_cons, List.mem_append]
    rintro (h | h | h)
    · exact hn c (idStart_idChar hc) h.symm
    · exact hn _ (ht _ h) rfl
    · exact absurd h (by decide)
  | media b u => exact pathSplit_tail_no_slash _

theorem runFiles_getElem (F : List (Str × Hash)) (ops : List FileOp) (i : Nat) (href : Str)
    (h : (runFiles F ops)[i]? = some href) :
    ∃ op, ops[i]? = some op ∧ ∃ k, href = op.href (fileCandidate op.request k) := by
  induction ops generalizing F i with
  | nil => simp [runFiles] at h
  | cons op ops ih =>
    cases i with
    | zero =>
      simp [runFiles] at h
      obtain ⟨k, hk⟩ := name_eq_candidate F op.request none
      exact ⟨op, by simp, k, by rw [← h, hk]⟩
    | succ i =>
      simp [runFiles] at h
      simpa using ih _ i h

theorem plain_href (op : FileOp) (hop : PlainOp op) (k : Nat) :
    op.href (fileCandidate op.request k) = encodePathSegment (fileCandidate op.request k) := by
  cases op with
  | media b u => rfl
  | item id =>
    have hid : ∀ c ∈ (FileOp.item id).request, isPchar c = true := by
      obtain ⟨c0, t, rfl, hc0, ht⟩ := hop
      intro c hc
      simp only [FileOp.request, List.mem_append, List.mem_cons] at hc
      rcases hc with (hc | hc) | hc
      · subst hc; exact idChar_pchar (idStart_idChar hc0)
      · exact idChar_pchar (ht c hc)
      · simp at hc; rcases hc with hc | hc | hc | hc <;> subst hc <;> decide
    exact (encode_of_pchar _ (candidate_pchar hid k)).symm

/-- **C07.** Every href that the converter itself generates (for legal item identifiers and for any
media reference) is written as a direct child of the package directory. -/
theorem generated_files_inside (cp : Str) (hcp : cp ≠ []) (hl : cp.getLast? ≠ some '/')
    (ops : List FileOp) (hops : ∀ op ∈ ops, ∀ id, op = .item id → LegalId id) :
    ∀ href ∈ runFiles [] ops, ∃ name, location (resolveCPURI cp href) = location cp ++ [name] := by
  intro href hm
  obtain ⟨i, hi⟩ := List.getElem?_of_mem hm
  obtain ⟨op, hop, k, hk⟩ := runFiles_getElem [] ops i href hi
  have hmem := List.mem_of_getElem? hop
  have hns : '/' ∉ op.request := by
    cases op with
    | item id => exact request_no_slash _ (hops _ hmem id rfl)
    | media b u => exact pathSplit_tail_no_slash _
  have henc : op.href (fileCandidate op.request k) = encodePathSegment (fileCandidate op.request k) := by
    cases op with
    | item id => exact plain_href (.item id) (hops _ hmem id rfl) k
    | media b u => rfl
  refine ⟨(fileCandidate op.request k).map latin, ?_⟩
  rw [hk, henc, generated_path cp _ k hcp hl hns]
  obtain ⟨c, t, hc, hd⟩ := fileCandidate_head op.request k
  have hns2 : '/' ∉ (fileCandidate op.request k).map latin := by
    intro hm
    rw [List.mem_map] at hm
    obtain ⟨d, hd1, hd2⟩ := hm
    have := latin_eq_slash hd2
    subst this
    rcases fileCandidate_chars _ k _ hd1 with h | h | h | h | h
    · exact hns h
    all_goals exact absurd h (by decide)
  rw [location_append_plain _ _ hns2]
  have hne : latin c ≠ '.' := by
    unfold latin; split
    · decide
    · exact hd
  unfold walk
  rw [hc]
  simp [hne]

/-! ## C11: the manifest is not overwritten -/

theorem fileCandidate_manifest (f : Str) (k : Nat) (h : fileCandidate f k = "imsmanifest.xml".toList) :
    f = "imsmanifest.xml".toList := by
  have hparts := congrArg (split '.') h
  have hj : ∀ (a : Str) (ps : List Str), '.' ∉ a → (∀ p ∈ ps, '.' ∉ p) →
      split '.' (join '.' (a :: ps)) = a :: ps := by
    intro a ps
    induction ps generalizing a with
    | nil => intro ha _; simp [join]; exact split_of_not_mem _ _ ha
    | cons p ps ih =>
      intro ha hps
      simp only [join]
      rw [split_append, split_of_not_mem _ _ ha, ih p (hps p (by simp)) (fun q hq => hps q (by simp [hq]))]
      rfl
  have htl : ∀ p ∈ partsAfterStem f, '.' ∉ p := fun p hp =>
    split_no_sep '.' f p (List.mem_of_mem_tail hp)
  unfold fileCandidate at hparts
  rw [hj _ _ (idCandidate_stem_no_dot f k) htl] at hparts
  have hm : split '.' "imsmanifest.xml".toList = ["imsmanifest".toList, "xml".toList] := by decide
  rw [hm] at hparts
  injection hparts with h1 h2
  have hk : k = 0 := by
    unfold idCandidate at h1
    split at h1
    · assumption
    · exfalso
      have : '-' ∈ "imsmanifest".toList := by rw [← h1]; simp
      exact absurd this (by decide)
  subst hk
  simp [idCandidate] at h1
  have hst : (split '.' f) = ["imsmanifest".toList, "xml".toList] := by
    unfold stemOf at h1
    unfold partsAfterStem at h2
    cases hs : split '.' f with
    | nil => exact absurd hs (split_ne_nil '.' f)
    | cons s ps =>
      rw [hs] at h1 h2
      simp at h1 h2
      subst h2
      split at h1
      · cases h1
      · simp [h1]
  rw [← join_split '.' f, hst]
  decide

/-- **C11.** If no item or media file asks for the name `imsmanifest.xml`, no file of the package is
written over the manifest (names generated to avoid collisions never hit it either). -/
theorem manifest_not_overwritten_partial (cp : Str) (hcp : cp ≠ []) (hl : cp.getLast? ≠ some '/')
    (ops : List FileOp) (hops : ∀ op ∈ ops, ∀ id, op = .item id → LegalId id)
    (hreq : ∀ op ∈ ops, op.request ≠ "imsmanifest.xml".toList) :
    ∀ href ∈ runFiles [] ops, resolveCPURI cp href ≠ manifestPath cp := by
  intro href hm heq
  obtain ⟨i, hi⟩ := List.getElem?_of_mem hm
  obtain ⟨op, hop, k, hk⟩ := runFiles_getElem [] ops i href hi
  have hmem := List.mem_of_getElem? hop
  have hns : '/' ∉ op.request := by
    cases op with
    | item id => exact request_no_slash _ (hops _ hmem id rfl)
    | media b u => exact pathSplit_tail_no_slash _
  have henc : op.href (fileCandidate op.request k) = encodePathSegment (fileCandidate op.request k) := by
    cases op with
    | item id => exact plain_href (.item id) (hops _ hmem id rfl) k
    | media b u => rfl
  rw [hk, henc, generated_path cp _ k hcp hl hns] at heq
  unfold manifestPath at heq
  rw [pathJoin_plain cp _ hcp hl (by decide)] at heq
  have h1 := List.append_cancel_left heq
  injection h1 with _ h1
  have hl2 : ∀ (s t : Str), s.map latin = t → '?' ∉ t → s = t := by
    intro s
    induction s with
    | nil => intro t h _; simpa using h
    | cons c s ih =>
      intro t h hq
      cases t with
      | nil => cases h
      | cons d t =>
        simp at h hq
        have hc : c = d := by
          have h1 := h.1
          unfold latin at h1
          split at h1
          · exact absurd h1 hq.1
          · exact h1
        rw [hc, ih t h.2 hq.2]
  exact hreq op hmem (fileCandidate_manifest _ k (hl2 _ _ h1 (by decide)))

/-- **C11 refuted.** The item identifier `imsmanifest` is legal and its file is the manifest. -/
theorem manifest_overwritten : LegalId "imsmanifest".toList ∧
    (runFiles [] [.item "imsmanifest".toList]).map (resolveCPURI "/out/cp".toList) =
      [manifestPath "/out/cp".toList] := by
  refine ⟨?_, by decide +kernel⟩
  have : fixIdentifier "imsmanifest".toList = "imsmanifest".toList := by decide
  rw [← this]
  exact fixIdentifier_legal _ (by decide)

/-! ## C31: every local file of the package is written -/

/-- **C31.** A media href generated from a file name without a colon is always written. -/
theorem media_file_written_partial (cp : Str) (F : List (Str × Hash)) (basePath uri : Str)
    (h : ':' ∉ (FileOp.media basePath uri).request) :
    ∃ path, dumpPath cp ((FileOp.media basePath uri).href
      (getUniqueFileName F (FileOp.media basePath uri).request none).1) = .ok (some path) := by
  obtain ⟨k, hk⟩ := name_eq_candidate F (FileOp.media basePath uri).request none
  rw [hk]
  have hc : ':' ∉ encodePathSegment (fileCandidate (FileOp.media basePath uri).request k) := by
    intro hm
    simp only [encodePathSegment, List.mem_flatMap] at hm
    obtain ⟨c, hc1, hc2⟩ := hm
    have hcc : c = ':' := by
      unfold encodeSegChar at hc2
      split at hc2
      · exact (List.mem_singleton.1 hc2).symm
      · split at hc2
        · simp at hc2
        · exfalso
          simp only [List.mem_cons] at hc2
          have hx : ∀ n : Nat, n < 16 → hexDigitChar n ≠ ':' := by decide
          rcases hc2 with e | e | e | e
          · exact absurd e (by decide)
          · rename_i hle
            exact hx (c.toNat / 16) (by omega) e.symm
          · exact hx (c.toNat % 16) (by omega) e.symm
          · cases e
    subst hcc
    rcases fileCandidate_chars _ k _ hc1 with e | e | e | e | e
    · exact h e
    all_goals exact absurd e (by decide)
  unfold dumpPath
  have : relativeURL (encodePathSegment (fileCandidate (FileOp.media basePath uri).request k)) = .ok true := by
    unfold relativeURL
    rw [split_of_not_mem _ _ hc]
  show ∃ path, (match relativeURL (encodePathSegment (fileCandidate (FileOp.media basePath uri).request k)) with
      | .ok true => (.ok (some (resolveCPURI cp (encodePathSegment (fileCandidate (FileOp.media basePath uri).request k)))) : Except Err (Option Str))
      | .ok false => .ok none
      | .error e => .error e) = .ok (some path)
  rw [this]
  exact ⟨_, rfl⟩

example : dumpPath "/cp".toList ((FileOp.media "/d/in.xml".toList "a%20b.png".toList).href
    (getUniqueFileName [] (FileOp.media "/d/in.xml".toList "a%20b.png".toList).request none).1) =
    .ok (some "/cp/a b.png".toList) := by decide +kernel

/-- **C31 refuted.** A local media file whose name contains a colon: `a%3Ab.png` is a relative
reference, but its new href looks absolute and the file is silently not written; `%3Ax.png` makes the
dump fail with an `IndexError`. -/
theorem media_file_not_written :
    relativeURL "a%3Ab.png".toList = .ok true ∧
    (runFiles [] [.media "/d/in.xml".toList "a%3Ab.png".toList]).map (dumpPath "/cp".toList) = [.ok none] ∧
    relativeURL "%3Ax.png".toList = .ok true ∧
    (runFiles [] [.media "/d/in.xml".toList "%3Ax.png".toList]).map (dumpPath "/cp".toList) =
      [.error .indexError] := by
  refine ⟨by decide +kernel, by decide +kernel, by decide +kernel, by decide +kernel⟩

end Verif.Props
