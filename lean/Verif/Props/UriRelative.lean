import Verif.Props.UriPath

/-!
# Relative references resolve back (C38)
-/

namespace Verif.Props

open Verif Verif.Uri Verif.Spec

set_option linter.unusedVariables false

/-! ## Segments -/

theorem relLoop_ups (base : List Str) : ∀ (result path : List Str), result ≠ [] →
    relLoop result path base = List.replicate base.length dotdot ++ result := by
  induction base with
  | nil => intro result path h; simp [relLoop]
  | cons b base ih =>
    intro result path h
    rw [relLoop, if_pos h, ih _ _ (by simp), List.length_cons, List.replicate_succ']
    simp

theorem relLoop_common (P : List Str) : ∀ (u b : List Str), relLoop [] (P ++ u) (P ++ b) = relLoop [] u b := by
  induction P with
  | nil => intro u b; rfl
  | cons p P ih =>
    intro u b
    show relLoop [] (p :: (P ++ u)) (p :: (P ++ b)) = _
    rw [relLoop, if_neg (by simp), if_neg (by simp)]
    exact ih u b

theorem common_prefix (U : List Str) : ∀ B : List Str, ∃ P u b, U = P ++ u ∧ B = P ++ b ∧
    (u = [] ∨ b = [] ∨ u.head? ≠ b.head?) := by
  induction U with
  | nil => intro B; exact ⟨[], [], B, rfl, rfl, .inl rfl⟩
  | cons x U ih =>
    intro B
    cases B with
    | nil => exact ⟨[], x :: U, [], rfl, rfl, .inr (.inl rfl)⟩
    | cons y B =>
      by_cases h : x = y
      · subst h
        obtain ⟨P, u, b, h1, h2, h3⟩ := ih B
        exact ⟨x :: P, u, b, by rw [h1]; rfl, by rw [h2]; rfl, h3⟩
      · exact ⟨[], x :: U, y :: B, rfl, rfl, .inr (.inr (by simp [h]))⟩

theorem normal_noDots (U : List Str) (h : U ≠ []) (hd : NoDots U) : normalizeSegments U = U := by
  obtain ⟨l, x, rfl⟩ : ∃ l x, U = l ++ [x] := ⟨U.dropLast, U.getLast h, (List.dropLast_concat_getLast h).symm⟩
  rw [path_normal_segments _ h, place, follow_down l (fun s hs => hd s (by simp [hs])) [x] (by simp), follow_one,
    if_neg (hd x (by simp)).1, if_neg (hd x (by simp)).2]
  simp [Place.segments]

theorem follow_back (l : List Str) (d : List Str) (u : Nat) (rest : List Str) (hr : rest ≠ []) :
    follow u (l ++ d) (List.replicate l.length ['.', '.'] ++ rest) = follow u d rest := by
  induction l with
  | nil => rfl
  | cons x l ih =>
    rw [List.length_cons, List.replicate_succ, List.cons_append, List.cons_append, follow_cons _ _ _ _ (by simp [hr]),
      if_neg (by decide), if_pos rfl]
    exact ih

theorem follow_end (U : List Str) (h : U ≠ []) (hd : NoDots U) (d : List Str) :
    (follow 0 d U).segments = d.reverse ++ U := by
  obtain ⟨l, x, rfl⟩ : ∃ l x, U = l ++ [x] := ⟨U.dropLast, U.getLast h, (List.dropLast_concat_getLast h).symm⟩
  rw [follow_down l (fun s hs => hd s (by simp [hs])) [x] (by simp), follow_one,
    if_neg (hd x (by simp)).1, if_neg (hd x (by simp)).2]
  simp [Place.segments]

/-- What the relative path is, for paths without `.` and `..` where the path is not a proper prefix of the base. -/
theorem relativize_cases (U B : List Str) (hU : NoDots U) (hB : NoDots B) (hBne : B ≠ [])
    (hnp : ∀ x rest, B ≠ U ++ x :: rest) :
    (U = B ∧ relativizeSegments U B = []) ∨
    (U ≠ B ∧ ∃ R, relativizeSegments U B = R ∧ normalizeSegments (B.dropLast ++ R) = U ∧
      (∀ s ∈ R, s ∈ U ∨ s = ['.', '.'] ∨ s = ['.']) ∧
      ((∃ R', R = ['.', '.'] :: R' ∧ R' ≠ []) ∨ (R = [['.'], []]) ∨
        (U = B.dropLast ++ R ∧ R ≠ [[]] ∧ R ≠ []))) := by
  obtain ⟨P, u, b, hu, hb, h⟩ := common_prefix U B
  have hrel : relLoop [] U B = relLoop [] u b := by rw [hu, hb, relLoop_common]
  by_cases hbn : b = []
  · subst hbn
    simp only [List.append_nil] at hb
    subst hb
    have hr : relLoop [] U B = [] := by rw [hrel]; cases u <;> rfl
    by_cases hun : u = []
    · subst hun
      left
      simp only [List.append_nil] at hu
      subst hu
      refine ⟨rfl, ?_⟩
      unfold relativizeSegments
      simp [hr]
    · right
      have hlen : U.length > B.length := by
        rw [hu]; cases u with
        | nil => exact absurd rfl hun
        | cons _ _ => simp
      refine ⟨by intro h; rw [h] at hlen; omega, ?_⟩
      obtain ⟨D, l, rfl⟩ : ∃ D l, B = D ++ [l] := ⟨B.dropLast, B.getLast hBne, (List.dropLast_concat_getLast hBne).symm⟩
      have hR : relativizeSegments U (D ++ [l]) = l :: u := by
        unfold relativizeSegments
        simp only [hr]
        rw [if_pos ⟨trivial, hlen⟩, if_neg hBne, hu]
        simp
      refine ⟨l :: u, hR, ?_, ?_, .inr (.inr ⟨by rw [hu]; simp, ?_, by simp⟩)⟩
      · have : (D ++ [l]).dropLast ++ l :: u = U := by rw [hu]; simp
        rw [this]
        exact normal_noDots U (by rw [hu]; simp) hU
      · intro s hs
        left; rw [hu]
        simp only [List.mem_cons] at hs
        rcases hs with hs | hs
        · subst hs; simp
        · simp [hs]
      · intro he
        injection he with _ he
        exact hun he
  · match b, hbn with
    | y :: bs, _ =>
      have hun : u ≠ [] := by
        rintro rfl
        simp only [List.append_nil] at hu
        subst hu
        exact hnp y bs hb
      match u, hun with
      | x :: us, _ =>
        have hxy : x ≠ y := by
          intro hxy
          rcases h with h | h | h
          · cases h
          · cases h
          · rw [hxy] at h; exact h rfl
        right
        have hne : U ≠ B := by
          intro he
          rw [hu, hb] at he
          have := List.append_cancel_left he
          injection this with h1 _
          exact hxy h1
        refine ⟨hne, ?_⟩
        have hr : relLoop [] U B = List.replicate bs.length dotdot ++ (x :: us) := by
          rw [hrel, relLoop, if_neg (by simp), if_pos (by simp [hxy])]
          exact relLoop_ups bs _ _ (by simp)
        have hnorm : normalizeSegments (B.dropLast ++ (List.replicate bs.length ['.', '.'] ++ (x :: us))) = U := by
          have hD : B.dropLast = P ++ (y :: bs).dropLast := by
            rw [hb, List.dropLast_append_of_ne_nil (by simp)]
          have hDl : ((y :: bs).dropLast).reverse.length = bs.length := by simp
          rw [path_normal_segments _ (by simp), place, hD, follow_down _ (by
            intro s hs
            rw [List.mem_append] at hs
            rcases hs with hs | hs
            · exact hB s (by rw [hb]; simp [hs])
            · exact hB s (by rw [hb]; exact List.mem_append_right _ (List.dropLast_subset _ hs))) _ (by simp),
            List.reverse_append, List.append_nil, ← hDl, follow_back _ _ _ _ (by simp), follow_end (x :: us) (by simp)
            (fun s hs => hU s (by rw [hu]; simp only [List.mem_append]; right; exact hs))]
          rw [hu]; simp
        by_cases hsp : List.replicate bs.length dotdot ++ (x :: us) = [[]]
        · have hbs : bs = [] := by
            cases bs with
            | nil => rfl
            | cons _ bs => rw [List.length_cons, List.replicate_succ] at hsp; injection hsp with h1 _; exact absurd h1 (by decide)
          subst hbs
          simp only [List.length_nil, List.replicate_zero, List.nil_append] at hsp hnorm hr
          refine ⟨[['.'], []], ?_, ?_, ?_, .inr (.inl rfl)⟩
          · unfold relativizeSegments
            simp only [hr, hsp]
            rw [if_neg (by simp), if_pos trivial]; rfl
          · have hD : B.dropLast = P := by rw [hb]; simp
            rw [hD] at hnorm ⊢
            rw [hsp] at hnorm
            rw [← hnorm]
            have hP : NoDots P := fun s hs => hU s (by rw [hu]; simp [hs])
            rw [path_normal_segments _ (by simp), path_normal_segments _ (by simp), place, place,
              follow_down P hP _ (by simp), follow_down P hP _ (by simp), follow_cons _ _ _ _ (by simp), if_pos rfl]
          · intro s hs
            simp only [List.mem_cons, List.not_mem_nil, or_false] at hs
            rcases hs with hs | hs
            · exact .inr (.inr hs)
            · left; rw [hs, hu, hsp]; simp
        · refine ⟨List.replicate bs.length dotdot ++ (x :: us), ?_, hnorm, ?_, ?_⟩
          · unfold relativizeSegments
            simp only [hr]
            rw [if_neg (by simp), if_neg hsp]
          · intro s hs
            rw [List.mem_append] at hs
            rcases hs with hs | hs
            · exact .inr (.inl (List.mem_replicate.1 hs).2)
            · left; rw [hu]; simp only [List.mem_append]; right; exact hs
          · cases bs with
            | nil =>
              right; right
              refine ⟨by rw [hu, hb]; simp, hsp, by simp⟩
            | cons z bs =>
              left
              exact ⟨List.replicate bs.length dotdot ++ (x :: us), by rw [List.length_cons, List.replicate_succ]; rfl, by simp⟩

/-! ## Splitting and joining -/

theorem split_ne (p : Str) : ∀ acc, splitLoop (some acc) p ≠ [] := by
  induction p with
  | nil => intro acc; simp [splitLoop]
  | cons c t ih =>
    intro acc
    rw [splitLoop]
    split
    · simp
    · exact ih _

theorem join_split (p : Str) : ∀ acc, joinSlash (splitLoop (some acc) p) = acc ++ p := by
  unfold joinSlash
  induction p with
  | nil => intro acc; simp [splitLoop, Py.join]
  | cons c t ih =>
    intro acc
    rw [splitLoop]
    split
    · rename_i hc
      have h2 := split_ne t []
      have h1 := ih []
      match hs : splitLoop (some []) t, h2 with
      | q :: qs, _ =>
        rw [hs] at h1
        rw [Py.join, h1, (isSlash c).1 hc]; rfl
    · rw [Option.map_some, ih]; simp

theorem split_noSlash (p : Str) : ∀ acc, '/' ∉ acc → ∀ s ∈ splitLoop (some acc) p, '/' ∉ s := by
  induction p with
  | nil => intro acc h s hs; simp [splitLoop] at hs; rw [hs]; exact h
  | cons c t ih =>
    intro acc h s hs
    rw [splitLoop] at hs
    split at hs
    · simp only [List.mem_cons] at hs
      rcases hs with hs | hs
      · rw [hs]; exact h
      · exact ih [] (by simp) s hs
    · rename_i hc
      exact ih _ (by simp; exact ⟨h, fun e => hc ((isSlash c).2 e.symm)⟩) s hs

theorem split_append (s : Str) (hs : '/' ∉ s) (t : Str) : ∀ acc,
    splitLoop (some acc) (s ++ '/' :: t) = (acc ++ s) :: splitLoop (some []) t := by
  induction s with
  | nil => intro acc; show splitLoop (some acc) ('/' :: t) = _; rw [splitLoop, if_pos (by decide)]; simp
  | cons c s ih =>
    intro acc
    simp only [List.mem_cons, not_or] at hs
    show splitLoop (some acc) (c :: (s ++ '/' :: t)) = _
    rw [splitLoop, if_neg (by rw [isSlash]; exact fun h => hs.1 h.symm), Option.map_some, ih hs.2]; simp

theorem split_last (s : Str) (hs : '/' ∉ s) : ∀ acc, splitLoop (some acc) s = [acc ++ s] := by
  induction s with
  | nil => intro acc; simp [splitLoop]
  | cons c s ih =>
    intro acc
    simp only [List.mem_cons, not_or] at hs
    rw [splitLoop, if_neg (by rw [isSlash]; exact fun h => hs.1 h.symm), Option.map_some, ih hs.2]; simp

theorem split_join (l : List Str) (h : l ≠ []) (hl : ∀ s ∈ l, '/' ∉ s) : splitLoop (some []) (joinSlash l) = l := by
  unfold joinSlash
  induction l with
  | nil => exact absurd rfl h
  | cons s l ih =>
    cases l with
    | nil => rw [Py.join, split_last s (hl s (by simp))]; rfl
    | cons q l =>
      rw [Py.join, split_append s (hl s (by simp)), ih (by simp) (fun x hx => hl x (by simp [hx]))]; rfl

theorem splitAbs_slash (t : Str) : splitAbsPath ('/' :: t) = splitLoop (some []) t := rfl

theorem splitRel_eq (p : Str) : splitRelPath p = splitLoop (some []) p := by
  unfold splitRelPath
  split
  · rfl
  · rename_i h
    rw [Decidable.byContradiction h]; rfl

theorem join_mem (l : List Str) (c : Char) (h : c ∈ joinSlash l) : c = '/' ∨ ∃ s ∈ l, c ∈ s := by
  unfold joinSlash at h
  induction l with
  | nil => cases h
  | cons s l ih =>
    cases l with
    | nil => rw [Py.join] at h; exact .inr ⟨s, by simp, h⟩
    | cons q l =>
      rw [Py.join, List.mem_append, List.mem_cons] at h
      rcases h with h | h | h
      · exact .inr ⟨s, by simp, h⟩
      · exact .inl h
      · rcases ih h with h | ⟨x, hx, h⟩
        · exact .inl h
        · exact .inr ⟨x, by simp [hx], h⟩

theorem mem_join (l : List Str) (s : Str) (hs : s ∈ l) (c : Char) (hc : c ∈ s) : c ∈ joinSlash l := by
  unfold joinSlash
  induction l with
  | nil => cases hs
  | cons a l ih =>
    cases l with
    | nil =>
      simp only [List.mem_cons, List.not_mem_nil, or_false] at hs
      rw [Py.join, ← hs]; exact hc
    | cons q l =>
      rw [Py.join, List.mem_append, List.mem_cons]
      rcases List.mem_cons.1 hs with hs | hs
      · left; rw [← hs]; exact hc
      · right; right; exact ih hs

theorem join_text (l : List Str) : UriText (joinSlash l) ↔ ∀ s ∈ l, UriText s := by
  unfold joinSlash
  induction l with
  | nil => simp [Py.join]; exact .nil
  | cons a l ih =>
    cases l with
    | nil => simp [Py.join]
    | cons q l =>
      rw [Py.join]
      constructor
      · intro h
        obtain ⟨h1, h2⟩ := text_split h '/' (by decide) (by decide) a _ rfl
        intro s hs
        rcases List.mem_cons.1 hs with hs | hs
        · rw [hs]; exact h1
        · exact ih.1 h2 s hs
      · intro h
        exact text_append (h a (by simp)) (.char '/' _ (by decide) (ih.2 (fun s hs => h s (by simp [hs]))))

/-! ## URI references -/

theorem mkURI_octets (o : Str) (u : URI) (h : mkURI o = .ok u) :
    u.scheme.elim [] (· ++ [':']) ++ partsText u.parts = u.octets := by
  have h1 := uri_recompose o u h
  obtain ⟨_, h2, _⟩ := mkURI_ok o u h
  rw [h2] at h1
  have h3 : (uriComponents u).text = (u.scheme.elim [] (· ++ [':']) ++ partsText u.parts) ++ u.fragment.elim [] ('#' :: ·) := by
    unfold Components.text uriComponents partsText
    simp only [List.append_assoc]
  rw [h3] at h1
  exact List.append_cancel_right h1

/-- The shape of the parts of an accepted reference. -/
theorem mkURI_parts (o : Str) (u : URI) (h : mkURI o = .ok u) :
    u.parts = {} ∨ (∃ x, u.parts = { opaquePart := some x }) ∨ Shaped .query [] u.parts := by
  obtain ⟨_, _, h3⟩ := mkURI_ok o u h
  rcases h3 with ⟨s, _, _, h6⟩ | ⟨_, _, h6⟩
  · generalize u.octets.drop (s.length + 1) = t at h6
    match t, h6 with
    | [], h6 => exact .inl h6
    | d :: t, h6 =>
      by_cases hd : d = '/'
      · subst hd; right; right; rw [h6, ssp_slash]; exact parseLoop_shaped _ _ _ _ (by simp [Shaped])
      · right; left; exact ⟨_, by rw [h6, ssp_opaque d t hd]⟩
  · right; right
    rw [h6]
    match u.octets with
    | [] => simp [Shaped, parseRelativeURI]
    | d :: t =>
      by_cases hd : d = '/'
      · subst hd; rw [rel_slash]; exact parseLoop_shaped _ _ _ _ (by simp [Shaped])
      · show Shaped .query [] (if d.toNat = 0x2F then _ else if d.toNat = 0x3F then _ else _)
        rw [if_neg (by rw [isSlash]; exact hd)]
        split
        · exact parseLoop_shaped _ _ _ _ (by simp [Shaped])
        · rename_i hq
          have hq : '?' ≠ d := fun h => hq ((isQuery d).2 h.symm)
          exact parseLoop_shaped _ _ _ _ (by simp [Shaped, hd, hq])

theorem mkURI_abs (o : Str) (u : URI) (h : mkURI o = .ok u) (p : Str) (hp : u.parts.absPath = some p) :
    u.parts.opaquePart = none ∧ u.parts.relPath = none ∧ '?' ∉ p := by
  rcases mkURI_parts o u h with h1 | ⟨x, h1⟩ | h1
  · rw [h1] at hp; cases hp
  · rw [h1] at hp; cases hp
  · obtain ⟨s1, s2, s3, s4, s5⟩ := h1
    refine ⟨s1, ?_, (s3 p hp).2.1⟩
    cases hr : u.parts.relPath with
    | none => rfl
    | some x => have := (s4 x hr).2.2.2; rw [hp] at this; cases this

/-- The octets of a reference with an absolute path. -/
theorem abs_octets (o : Str) (u : URI) (h : mkURI o = .ok u) (p : Str) (hp : u.parts.absPath = some p) :
    u.octets = u.scheme.elim [] (· ++ [':']) ++ u.parts.authority.elim [] ('/' :: '/' :: ·) ++ p ++ qText u.parts.query := by
  obtain ⟨h1, h2, _⟩ := mkURI_abs o u h p hp
  rw [← mkURI_octets o u h, partsText, h1, h2, hp]
  simp [qText]

/-- The path and the query of a reference are URI text. -/
theorem abs_text (o : Str) (u : URI) (h : mkURI o = .ok u) (t : Str) (hp : u.parts.absPath = some ('/' :: t)) :
    UriText t ∧ UriText (qText u.parts.query) := by
  have h1 := (mkURI_ok o u h).1
  rw [abs_octets o u h _ hp] at h1
  obtain ⟨_, h2⟩ := text_split h1 '/' (by decide) (by decide)
    (u.scheme.elim [] (· ++ [':']) ++ u.parts.authority.elim [] ('/' :: '/' :: ·)) (t ++ qText u.parts.query) (by simp)
  cases hq : u.parts.query with
  | none =>
    rw [hq] at h2
    refine ⟨?_, .nil⟩
    simpa [qText] using h2
  | some q =>
    rw [hq] at h2
    obtain ⟨h3, h4⟩ := text_split h2 '?' (by decide) (by decide) t q rfl
    exact ⟨h3, .char _ _ (by decide) h4⟩

/-- A relative path, query and fragment are parsed as such. -/
theorem relative_text (r : Str) (q f : Option Str) (hr : UriText r) (hq : UriText (qText q)) (h1 : r.head? ≠ some '/')
    (h2 : '?' ∉ r) (h3 : ∀ s t, r = s ++ ':' :: t → s ≠ [] ∧ schemeName s = false) :
    mkURI (compose none none none (some r) q f) = .ok ⟨r ++ qText q, f, none, { relPath := some r, query := q }⟩ := by
  have := uri_parse_composed_partial ⟨none, none, none, none, some r, q, f⟩
    ⟨by simp, by simp, by simp, by simp, by
      intro p hp
      injection hp with hp
      subst hp
      exact ⟨h1, h2, rfl, rfl, rfl⟩, by
      intro _
      refine ⟨by simp, ?_⟩
      intro p s t hp hps
      injection hp with hp
      subst hp
      exact (h3 s t hps).2, by simp⟩ (by
      intro p hp
      injection hp with hp
      subst hp
      intro hc
      match r, hc with
      | c :: t, hc =>
        simp only [List.head?_cons, Option.some.injEq] at hc
        exact (h3 [] t (by rw [hc]; rfl)).1 rfl) (r ++ qText q) (text_append hr hq) (by simp [Components.text, qText])
  simp only [Components.text] at this
  rw [← this]
  congr 1

/-- Scheme names contain no slash. -/
theorem scheme_noSlash (s : Str) (h : schemeName s = true) : '/' ∉ s := by
  rw [schemeName_eq] at h
  match s, h with
  | c :: t, h =>
    simp only [Bool.and_eq_true, List.all_eq_true] at h
    intro hm
    rcases List.mem_cons.1 hm with hm | hm
    · rw [← hm] at h; exact absurd h.1 (by decide)
    · exact absurd (h.2 _ hm) (by decide)

/-- A path does not begin like a scheme if its first segment does not. -/
theorem join_noScheme (x : Str) (rest : List Str) (hx : ∀ s t, x = s ++ ':' :: t → s ≠ [] ∧ schemeName s = false)
    (hne : joinSlash (x :: rest) ≠ []) (s t : Str) (h : joinSlash (x :: rest) = s ++ ':' :: t) :
    s ≠ [] ∧ schemeName s = false := by
  cases rest with
  | nil => exact hx s t h
  | cons y rest =>
    have h : x ++ '/' :: joinSlash (y :: rest) = s ++ ':' :: t := h
    rw [List.append_eq_append_iff] at h
    rcases h with ⟨z, e1, e2⟩ | ⟨z, e1, e2⟩
    · cases z with
      | nil => injection e2 with e3 _; exact absurd e3 (by decide)
      | cons d z =>
        injection e2 with e3 _
        have hs : '/' ∈ s := by rw [e1, ← e3]; simp
        refine ⟨(by intro h; rw [h] at hs; cases hs), ?_⟩
        cases hn : schemeName s with
        | false => rfl
        | true => exact absurd hs (scheme_noSlash s hn)
    · cases z with
      | nil => injection e2 with e3 _; exact absurd e3 (by decide)
      | cons d z =>
        injection e2 with e3 _
        exact hx s z (by rw [e1, ← e3])

/-- C38, partial: for two references with the same scheme and authority and absolute paths, made of the segments `U` and
`B` without `.` and `..`, the relative form of the first resolves back to it, provided that
 * the path is not that of a directory above the base (`U` is not a proper prefix of `B`),
 * if the paths are equal, the base has no query that the reference does not have, and a reference with a query has a
   path that ends in a slash,
 * the first segment of the relative path (if it is not `..`) is neither empty nor begins like a scheme. -/
theorem uri_relative_resolve_partial (ou ob : Str) (u base : URI) (hu : mkURI ou = .ok u) (hb : mkURI ob = .ok base)
    (hscheme : u.scheme = base.scheme) (hauth : u.parts.authority = base.parts.authority)
    (U B : List Str) (hUne : U ≠ []) (hBne : B ≠ []) (hUs : ∀ s ∈ U, '/' ∉ s) (hBs : ∀ s ∈ B, '/' ∉ s)
    (hp : u.parts.absPath = some ('/' :: Py.join '/' U)) (hq : base.parts.absPath = some ('/' :: Py.join '/' B))
    (hUd : NoDots U) (hBd : NoDots B)
    (habove : ∀ x rest, B ≠ U ++ x :: rest)
    (hsame : U = B → (u.parts.query = none → base.parts.query = none) ∧
      (u.parts.query ≠ none → U.getLast? = some []))
    (hfirst : ∀ x rest, U ≠ B → U = B.dropLast ++ x :: rest → (x = [] → rest = []) ∧
      ∀ s t, x = s ++ ':' :: t → s ≠ [] ∧ schemeName s = false) :
    ∃ r, relative u base = .ok r ∧ resolve r base = .ok u := by
  obtain ⟨ho, hr, hpq⟩ := mkURI_abs ou u hu _ hp
  obtain ⟨htU, htq⟩ := abs_text ou u hu _ hp
  have hUt := (join_text U).1 htU
  -- the relative form
  have hrel : relative u base = mkURI (compose none none none (some (joinSlash (relativizeSegments U B))) u.parts.query
      u.fragment) := by
    have hm : makeRelPathAbs ('/' :: Py.join '/' U) ('/' :: Py.join '/' B) = joinSlash (relativizeSegments U B) := by
      unfold makeRelPathAbs
      rw [splitAbs_slash, splitAbs_slash]
      have e1 : splitLoop (some []) (Py.join '/' U) = U := split_join U hUne hUs
      have e2 : splitLoop (some []) (Py.join '/' B) = B := split_join B hBne hBs
      rw [e1, e2, normal_noDots U hUne hUd, normal_noDots B hBne hBd]
    unfold relative
    simp only [ho, ne_eq, not_true_eq_false, if_false, hscheme, hauth, hp, hq, hm]
    cases hsc : base.scheme with
    | none =>
      simp only
      rw [if_neg (by intro h; exact h.2 h.1)]
    | some s =>
      simp only [not_true_eq_false, if_false]
      rw [if_neg (by intro h; exact h.2 h.1)]
  -- the text of the reference
  have hfinal : mkURI (compose base.scheme base.parts.authority (some ('/' :: joinSlash U)) none u.parts.query u.fragment)
      = .ok u := by
    have : compose base.scheme base.parts.authority (some ('/' :: joinSlash U)) none u.parts.query u.fragment = ou := by
      rw [← uri_recompose ou u hu]
      unfold compose Components.text uriComponents
      simp only [ho, hr, hp, hscheme, hauth, Option.getD_none, Option.getD_some, List.append_nil]
      rfl
    rw [this]; exact hu
  have hBpath : splitAbsPath ('/' :: Py.join '/' B) = B := split_join B hBne hBs
  have hqU : ∀ s ∈ U, '?' ∉ s := by
    intro s hs hm
    apply hpq
    exact List.mem_cons_of_mem _ (mem_join U s hs '?' hm)
  rcases relativize_cases U B hUd hBd hBne habove with ⟨hUB, hR⟩ | ⟨hne, R, hR, hnorm, hmem, hform⟩
  · -- equal paths
    obtain ⟨hq1, hq2⟩ := hsame hUB
    rw [hR] at hrel
    have hparse := relative_text [] u.parts.query u.fragment .nil htq (by simp) (by simp)
      (by intro s t h; cases s <;> cases h)
    rw [show joinSlash [] = [] from rfl, hparse] at hrel
    refine ⟨_, hrel, ?_⟩
    cases hqq : u.parts.query with
    | none =>
      have hbq := hq1 hqq
      have hoct : base.octets = u.octets := by
        rw [abs_octets ou u hu _ hp, abs_octets ob base hb _ hq, hqq, hbq, hscheme, hauth, hUB]
      have hou := (mkURI_ok ou u hu).2.1
      unfold resolve
      simp only [truthy, List.isEmpty_nil, Bool.not_true, Bool.or_self, Bool.not_false, and_self, if_true]
      cases hf : u.fragment with
      | none =>
        simp only
        rw [hoct]
        rw [hf] at hou
        simp only [Option.elim_none, List.append_nil] at hou
        rw [← hou]; exact hu
      | some f =>
        simp only
        rw [hoct]
        rw [hf] at hou
        rw [show (some f).elim [] ('#' :: ·) = '#' :: f from rfl] at hou
        rw [← hou]; exact hu
    | some q =>
      have hlast := hq2 (by rw [hqq]; simp)
      unfold resolve
      simp only [reduceCtorEq, and_false, if_false, ne_eq, not_true_eq_false, hq, hBpath, Option.getD_some]
      have hs : normalizeSegments (B.dropLast ++ splitRelPath []) = U := by
        have : B.dropLast ++ splitRelPath [] = U := by
          rw [← hUB]
          obtain ⟨D, l, rfl⟩ : ∃ D l, U = D ++ [l] := ⟨U.dropLast, U.getLast hUne, (List.dropLast_concat_getLast hUne).symm⟩
          simp only [List.getLast?_append, List.getLast?_singleton, Option.some_or, Option.some.injEq] at hlast
          rw [hlast]; simp [splitRelPath]
        rw [this]; exact normal_noDots U hUne hUd
      rw [hs, ← hqq]
      exact hfinal
  · -- different paths
    rw [hR] at hrel
    have hRs : ∀ s ∈ R, '/' ∉ s := by
      intro s hs
      rcases hmem s hs with h | h | h
      · exact hUs s h
      · rw [h]; decide
      · rw [h]; decide
    have hRt : ∀ s ∈ R, UriText s := by
      intro s hs
      rcases hmem s hs with h | h | h
      · exact hUt s h
      · rw [h]; exact .char _ _ (by decide) (.char _ _ (by decide) .nil)
      · rw [h]; exact .char _ _ (by decide) .nil
    have hRq : '?' ∉ joinSlash R := by
      intro hm
      rcases join_mem R '?' hm with h | ⟨s, hs, h⟩
      · exact absurd h (by decide)
      · rcases hmem s hs with e | e | e
        · exact hqU s e h
        · rw [e] at h; exact absurd h (by decide)
        · rw [e] at h; exact absurd h (by decide)
    -- the first segment
    obtain ⟨x, rest, hRx, hx1, hx2⟩ : ∃ x rest, R = x :: rest ∧ x ≠ [] ∧
        ∀ s t, x = s ++ ':' :: t → s ≠ [] ∧ schemeName s = false := by
      rcases hform with ⟨R', h1, _⟩ | h1 | ⟨h1, h2, h3⟩
      · refine ⟨_, _, h1, by simp, ?_⟩
        intro s t h
        match s, h with
        | [], h => injection h with e _; exact absurd e (by decide)
        | [a], h => injection h with _ h; injection h with e _; exact absurd e (by decide)
        | a :: b :: s, h => injection h with _ h; injection h with _ h; cases s <;> cases h
      · refine ⟨_, _, h1, by simp, ?_⟩
        intro s t h
        match s, h with
        | [], h => injection h with e _; exact absurd e (by decide)
        | a :: s, h => injection h with _ h; cases s <;> cases h
      · match R, h3 with
        | x :: rest, _ =>
          obtain ⟨h4, h5⟩ := hfirst x rest hne h1
          refine ⟨x, rest, rfl, ?_, h5⟩
          intro hx
          apply h2
          rw [hx, h4 hx]
    have hjne : joinSlash R ≠ [] := by
      rw [hRx]
      cases rest with
      | nil => exact hx1
      | cons y rest => show x ++ '/' :: _ ≠ []; simp
    have hjhead : (joinSlash R).head? ≠ some '/' := by
      have hxs := hRs x (by rw [hRx]; simp)
      match x, hx1, hRx, hxs with
      | c :: x, _, hRx, hxs =>
        simp only [List.mem_cons, not_or] at hxs
        rw [hRx]
        cases rest with
        | nil => show some c ≠ _; simp; exact fun h => hxs.1 h.symm
        | cons y rest => show some c ≠ _; simp; exact fun h => hxs.1 h.symm
    have hparse := relative_text (joinSlash R) u.parts.query u.fragment ((join_text R).2 hRt) htq hjhead hRq (by
      intro s t h
      rw [hRx] at h hjne
      exact join_noScheme x rest hx2 hjne s t h)
    rw [hparse] at hrel
    refine ⟨_, hrel, ?_⟩
    have htr : truthy (some (joinSlash R)) = true := by
      cases hj : joinSlash R with
      | nil => exact absurd hj hjne
      | cons _ _ => rfl
    unfold resolve
    simp only [htr, Bool.or_true, Bool.not_true, Bool.false_eq_true, false_and, if_false, ne_eq, not_true_eq_false, hq, hBpath,
      Option.getD_some]
    have hRne : R ≠ [] := by rw [hRx]; simp
    rw [splitRel_eq, split_join R hRne hRs, hnorm]
    exact hfinal

/-- C38 is refuted.  Six references that do not resolve back, with the relative form each of them gets: a directory
above the base; equal paths where only the base has a query; the same path with a query; a segment that looks like a scheme; an
empty segment; and a relative reference whose base goes up, for which a segment `x` is invented. -/
theorem uri_relative_resolve_fails :
    ∀ t ∈ [("/a/b", "/a/b/c", "", "/a/b/c"), ("/a", "/a?q", "", "/a?q"), ("/a/b?q", "/a/b", "?q", "/a/?q"),
      ("/a/b:c", "/a/d", "b:c", "b:c"), ("http://h//x", "http://h/y", "/x", "http://h/x"), ("a", "../b", "x/a", "../x/a")],
    (do
      let u ← mkURI t.1.toList
      let b ← mkURI t.2.1.toList
      let r ← relative u b
      let u' ← resolve r b
      pure (r.str, u'.str)) = Except.ok (t.2.2.1.toList, t.2.2.2.toList) ∧ t.1 ≠ t.2.2.2 := by
  decide +kernel

/-- A case that meets the hypotheses of the partial theorem: `/HD/User/setting.txt` relative to `/HD/folder/file.txt`. -/
example : ∃ u base r, mkURI "/HD/User/setting.txt".toList = .ok u ∧ mkURI "/HD/folder/file.txt".toList = .ok base ∧
    relative u base = .ok r ∧ resolve r base = .ok u := by
  have h1 : mkURI "/HD/User/setting.txt".toList = .ok ⟨"/HD/User/setting.txt".toList, none, none,
    { absPath := some "/HD/User/setting.txt".toList }⟩ := by decide +kernel
  have h2 : mkURI "/HD/folder/file.txt".toList = .ok ⟨"/HD/folder/file.txt".toList, none, none,
    { absPath := some "/HD/folder/file.txt".toList }⟩ := by decide +kernel
  obtain ⟨r, h3, h4⟩ := uri_relative_resolve_partial _ _ _ _ h1 h2 rfl rfl
    ["HD".toList, "User".toList, "setting.txt".toList] ["HD".toList, "folder".toList, "file.txt".toList]
    (by decide) (by decide) (by decide) (by decide) (by decide +kernel) (by decide +kernel)
    (by unfold NoDots; decide) (by unfold NoDots; decide)
    (by
      intro x rest h
      have := congrArg List.length h
      simp at this)
    (by decide)
    (by
      intro x rest _ h
      have := congrArg (fun l => l[1]?) h
      exact absurd this (by simp))
  exact ⟨_, _, r, h1, h2, h3, h4⟩

example : (do
      let u ← mkURI "/HD/User/setting.txt".toList
      let b ← mkURI "/HD/folder/file.txt".toList
      let r ← relative u b
      let u' ← resolve r b
      pure (r.str, u'.str)) = Except.ok ("../User/setting.txt".toList, "/HD/User/setting.txt".toList) := by
  decide +kernel

end Verif.Props
