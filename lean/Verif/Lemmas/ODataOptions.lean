import Verif.Lemmas.ODataPrint
import Verif.Lemmas.ODataErr
import Verif.Lemmas.ContentPackage
import Verif.Lemmas.Paging
import Verif.Lemmas.MemStore
import Verif.Spec.ODataOptions

/-! # Lemmas about `$expand`, `$select` and `$orderby` -/

namespace Verif.OData

open Verif Verif.Spec.OData

/-! ## Nested dictionaries -/

theorem has_nil (f : Forest) : Has f [] := by cases f <;> simp [Has]

theorem nil_has {q : List Str} : Has .nil q ↔ q = [] := by cases q <;> simp [Has]

theorem names_put {n x : Str} {g : Forest → Forest} : ∀ {f : Forest}, x ∈ names (f.put n g) ↔ x ∈ names f ∨ x = n
  | .nil => by simp [Forest.put, names]
  | .cons m s r => by
    unfold Forest.put
    split
    · next h => subst h; simp only [names, List.mem_cons]; constructor
                · intro h; exact Or.inl h
                · rintro (h | h)
                  · exact h
                  · exact Or.inl h
    · simp only [names, List.mem_cons, names_put (f := r)]
      constructor
      · rintro (h | h | h)
        · exact Or.inl (Or.inl h)
        · exact Or.inl (Or.inr h)
        · exact Or.inr h
      · rintro ((h | h) | h)
        · exact Or.inl h
        · exact Or.inr (Or.inl h)
        · exact Or.inr (Or.inr h)

theorem put_lists {n : Str} {g : Forest → Forest} {p : List Str}
    (hg : ∀ s, Dictionary s → Dictionary (g s) ∧ ∀ q, Has (g s) q ↔ Has s q ∨ q <+: p) : ∀ {f : Forest}, Dictionary f →
    Dictionary (f.put n g) ∧ ∀ q, Has (f.put n g) q ↔ Has f q ∨ q <+: n :: p
  | .nil, _ => by
    obtain ⟨h1, h2⟩ := hg .nil trivial
    refine ⟨⟨by simp [names], h1, trivial⟩, fun q => ?_⟩
    cases q with
    | nil => simp [has_nil]
    | cons m q =>
      simp only [Forest.put, Has, h2, nil_has, or_false, false_or, List.cons_prefix_cons]
      constructor
      · rintro ⟨rfl, rfl | h⟩
        · exact ⟨rfl, List.nil_prefix⟩
        · exact ⟨rfl, h⟩
      · rintro ⟨rfl, h⟩
        exact ⟨rfl, Or.inr h⟩
  | .cons m s r, ⟨h1, h2, h3⟩ => by
    unfold Forest.put
    split
    · next hm =>
      subst hm
      obtain ⟨g1, g2⟩ := hg s h2
      refine ⟨⟨h1, g1, h3⟩, fun q => ?_⟩
      cases q with
      | nil => simp [has_nil]
      | cons k q =>
        simp only [Has, g2, List.cons_prefix_cons]
        constructor
        · rintro (⟨rfl, h | h⟩ | h)
          · exact Or.inl (Or.inl ⟨rfl, h⟩)
          · exact Or.inr ⟨rfl, h⟩
          · exact Or.inl (Or.inr h)
        · rintro ((⟨rfl, h⟩ | h) | ⟨rfl, h⟩)
          · exact Or.inl ⟨rfl, Or.inl h⟩
          · exact Or.inr h
          · exact Or.inl ⟨rfl, Or.inr h⟩
    · next hm =>
      obtain ⟨i1, i2⟩ := put_lists (n := n) hg h3
      refine ⟨⟨?_, h2, i1⟩, fun q => ?_⟩
      · rw [names_put]
        rintro (h | h)
        · exact h1 h
        · exact hm h
      · cases q with
        | nil => simp [has_nil]
        | cons k q =>
          simp only [Has, i2]
          constructor
          · rintro (h | h | h)
            · exact Or.inl (Or.inl h)
            · exact Or.inl (Or.inr h)
            · exact Or.inr h
          · rintro ((h | h) | h)
            · exact Or.inl h
            · exact Or.inr (Or.inl h)
            · exact Or.inr (Or.inr h)

theorem insert_lists : ∀ (p : List Str) {f : Forest}, Dictionary f →
    Dictionary (f.insert p) ∧ ∀ q, Has (f.insert p) q ↔ Has f q ∨ q <+: p
  | [], f, hf => by
    refine ⟨hf, fun q => ?_⟩
    rw [Forest.insert, List.prefix_nil]
    constructor
    · exact Or.inl
    · rintro (h | rfl)
      · exact h
      · exact has_nil f
  | n :: p, f, hf => put_lists (fun _ hs => insert_lists p hs) hf

theorem fold_lists : ∀ (ps : List (List Str)) {f : Forest}, Dictionary f →
    Dictionary (ps.foldl (fun f p => f.insert p) f) ∧
      ∀ q, Has (ps.foldl (fun f p => f.insert p) f) q ↔ Has f q ∨ ∃ p ∈ ps, q <+: p
  | [], f, hf => ⟨hf, fun q => by simp⟩
  | p :: ps, f, hf => by
    obtain ⟨h1, h2⟩ := insert_lists p hf
    obtain ⟨h3, h4⟩ := fold_lists ps h1
    refine ⟨h3, fun q => ?_⟩
    rw [List.foldl_cons, h4, h2]
    simp only [List.mem_cons, exists_eq_or_imp, or_assoc]

/-- The dictionary of a list of paths. -/
theorem fold_nil (ps : List (List Str)) : Lists (ps.foldl (fun f p => f.insert p) .nil) ps := by
  obtain ⟨h1, h2⟩ := fold_lists ps (f := .nil) trivial
  exact ⟨h1, fun q => by rw [h2, nil_has]⟩

/-! ## Names -/

theorem ident_sound {T : Tables} : ∀ (b : Bool) (s n t : Str), identLoop T b s = some (n, t) →
    s = n ++ t ∧ (b = true → Ident T n) ∧
      (b = false → (∀ d ∈ n, T.more d = true) ∨ ∃ a m, n = a ++ '.' :: m ∧ (∀ d ∈ a, T.more d = true) ∧ Ident T m)
  | true, [], n, t, h => by simp [identLoop] at h
  | true, c :: s, n, t, h => by
    simp only [identLoop] at h
    split at h
    · next hc =>
      cases hr : identLoop T false s with
      | none => rw [hr] at h; cases h
      | some r =>
        rw [hr] at h
        obtain ⟨a, u⟩ := r
        simp only [Option.map_some, Option.some.injEq, Prod.mk.injEq] at h
        obtain ⟨rfl, rfl⟩ := h
        obtain ⟨h1, _, h3⟩ := ident_sound false s a u hr
        refine ⟨by rw [h1]; rfl, fun _ => ?_, by intro h; cases h⟩
        rcases h3 rfl with h | ⟨x, m, rfl, hx, hm⟩
        · exact .one hc h
        · exact .dotted hc hx hm
    · cases h
  | false, [], n, t, h => by
    simp only [identLoop, Option.some.injEq, Prod.mk.injEq] at h
    obtain ⟨rfl, rfl⟩ := h
    exact ⟨rfl, (by intro h; cases h), fun _ => Or.inl (by simp)⟩
  | false, c :: s, n, t, h => by
    simp only [identLoop] at h
    split at h
    · next hc =>
      cases hr : identLoop T false s with
      | none => rw [hr] at h; cases h
      | some r =>
        rw [hr] at h
        obtain ⟨a, u⟩ := r
        simp only [Option.map_some, Option.some.injEq, Prod.mk.injEq] at h
        obtain ⟨rfl, rfl⟩ := h
        obtain ⟨h1, _, h3⟩ := ident_sound false s a u hr
        refine ⟨by rw [h1]; rfl, (by intro h; cases h), fun _ => ?_⟩
        rcases h3 rfl with h | ⟨x, m, rfl, hx, hm⟩
        · exact Or.inl (by simpa [hc] using h)
        · exact Or.inr ⟨c :: x, m, rfl, by simpa [hc] using hx, hm⟩
    · split at h
      · next hc =>
        cases hr : identLoop T true s with
        | none => rw [hr] at h; cases h
        | some r =>
          rw [hr] at h
          obtain ⟨a, u⟩ := r
          simp only [Option.map_some, Option.some.injEq, Prod.mk.injEq] at h
          obtain ⟨rfl, rfl⟩ := h
          obtain ⟨h1, h2, _⟩ := ident_sound true s a u hr
          refine ⟨by rw [h1]; rfl, (by intro h; cases h), fun _ => Or.inr ⟨[], a, by rw [hc]; rfl, by simp, h2 rfl⟩⟩
      · simp only [Option.some.injEq, Prod.mk.injEq] at h
        obtain ⟨rfl, rfl⟩ := h
        exact ⟨rfl, (by intro h; cases h), fun _ => Or.inl (by simp)⟩

theorem simpleIdentifier_sound {T : Tables} {s n t : Str} (h : simpleIdentifier T s = some (n, t)) : s = n ++ t ∧ Ident T n := by
  obtain ⟨h1, h2, _⟩ := ident_sound true s n t h
  exact ⟨h1, h2 rfl⟩

theorem ident_ne {T : Tables} {n : Str} (h : Ident T n) : n ≠ [] := by
  obtain ⟨c, t, rfl, _⟩ := Ident.ne h
  simp

/-- Characters that occur in no name. -/
theorem ident_not_mem {T : Tables} {c : Char} (h0 : c.toNat < 128) (h1 : (Py.isLetter c || Py.isDigit c || c == '_') = false)
    (h2 : c ≠ '.') {n : Str} (h : Ident T n) : c ∉ n := by
  have hm : T.more c = false := more_ascii_false h0 h1
  have hs : T.start c = false := by
    cases hx : T.start c with
    | false => rfl
    | true => rw [T.start_more c hx] at hm; cases hm
  induction h with
  | one hc ht =>
    intro hmem
    rcases List.mem_cons.1 hmem with rfl | h
    · rw [hc] at hs; cases hs
    · rw [ht _ h] at hm; cases hm
  | dotted hc ht _ ih =>
    intro hmem
    rcases List.mem_cons.1 hmem with rfl | h
    · rw [hc] at hs; cases hs
    · rcases List.mem_append.1 h with h | h
      · rw [ht _ h] at hm; cases hm
      · rcases List.mem_cons.1 h with rfl | h
        · exact h2 rfl
        · exact ih h

theorem ident_slashless {T : Tables} {n : Str} (h : Ident T n) : '/' ∉ n :=
  ident_not_mem (by decide) (by decide) (by decide) h

theorem ident_not_star {T : Tables} {n : Str} (h : Ident T n) : n ≠ ['*'] := by
  intro he
  have := ident_not_mem (c := '*') (by decide) (by decide) (by decide) h
  rw [he] at this
  simp at this

/-! ## Reading paths -/

theorem join_cons {sep : Char} {p : Str} {ps : List Str} (h : ps ≠ []) : Py.join sep (p :: ps) = p ++ sep :: Py.join sep ps := by
  cases ps with
  | nil => exact absurd rfl h
  | cons q qs => rfl

theorem join_length {sep : Char} : ∀ {ps : List Str}, (∀ p ∈ ps, p ≠ []) → ps.length ≤ (Py.join sep ps).length
  | [], _ => by simp
  | [p], h => by
    have : p ≠ [] := h p (by simp)
    have := List.length_pos_iff.2 this
    simp only [Py.join, List.length_cons, List.length_nil]; omega
  | p :: q :: ps, h => by
    have := join_length (sep := sep) (ps := q :: ps) (fun x hx => h x (by simp [hx]))
    rw [join_cons (by simp)]
    simp only [List.length_cons, List.length_append] at this ⊢
    omega

theorem expandPath_reads {T : Tables} : ∀ {p : List Str} {k : Nat} {rest : Str}, p ≠ [] → (∀ n ∈ p, Ident T n) →
    p.length ≤ k → Ends T rest → NoHead (· == '/') rest → expandPath T k (Py.join '/' p ++ rest) = .ok (p, rest)
  | [], _, _, h, _, _, _, _ => absurd rfl h
  | _ :: _, 0, _, _, _, hk, _, _ => by simp at hk
  | [n], k + 1, rest, _, hp, _, he, hs => by
    rw [expandPath]
    simp only [Py.join]
    rw [ident_read (hp n (by simp)) he.1 he.2]
    dsimp only
    rw [parseChar_none hs]
  | n :: m :: p, k + 1, rest, _, hp, hk, he, hs => by
    have he' : Ends T ('/' :: (Py.join '/' (m :: p) ++ rest)) := ends_cons (by decide) (by decide) (by decide)
    rw [expandPath, join_cons (by simp), List.append_assoc, List.cons_append, ident_read (hp n (by simp)) he'.1 he'.2]
    dsimp only
    rw [parseChar_self]
    dsimp only
    rw [expandPath_reads (p := m :: p) (by simp) (fun x hx => hp x (by simp [hx])) (by simpa using hk) he hs]
    rfl

theorem expandLoop_reads {T : Tables} : ∀ {ps : List (List Str)} {k : Nat} {f : Forest}, ps ≠ [] →
    (∀ p ∈ ps, p ≠ [] ∧ ∀ n ∈ p, Ident T n) → ps.length ≤ k →
    expandLoop T k f (Py.join ',' (ps.map (Py.join '/'))) = .ok (ps.foldl (fun f p => f.insert p) f)
  | [], _, _, h, _, _ => absurd rfl h
  | _ :: _, 0, _, _, _, hk => by simp at hk
  | [p], k + 1, f, _, hp, _ => by
    obtain ⟨h1, h2⟩ := hp p (by simp)
    have hl := join_length (sep := '/') (fun n hn => ident_ne (h2 n hn))
    have := expandPath_reads (k := (Py.join '/' p).length + 1) (rest := []) h1 h2 (by omega) ⟨noHead_nil, noHead_nil⟩ noHead_nil
    rw [List.append_nil] at this
    simp only [List.map_cons, List.map_nil, Py.join, expandLoop]
    rw [this]
    rfl
  | p :: q :: ps, k + 1, f, _, hp, hk => by
    obtain ⟨h1, h2⟩ := hp p (by simp)
    have hl := join_length (sep := '/') (fun n hn => ident_ne (h2 n hn))
    rw [List.map_cons, join_cons (by simp), expandLoop,
      expandPath_reads h1 h2 (by simp only [List.length_append]; omega) (ends_cons (by decide) (by decide) (by decide))
        (noHead_cons (by decide))]
    dsimp only
    rw [parseChar_self]
    dsimp only
    rw [expandLoop_reads (ps := q :: ps) (by simp) (fun x hx => hp x (by simp [hx])) (by simpa using hk)]
    rfl

theorem parseChar_some {c : Char} {s t : Str} (h : parseChar c s = some t) : s = c :: t := by
  cases s with
  | nil => cases h
  | cons d s =>
    simp only [parseChar] at h
    split at h
    · next hd => injection h with h; rw [hd, h]
    · cases h

theorem expandPath_sound {T : Tables} : ∀ {k : Nat} {s t : Str} {p : List Str}, expandPath T k s = .ok (p, t) →
    p ≠ [] ∧ (∀ n ∈ p, Ident T n) ∧ s = Py.join '/' p ++ t
  | 0, _, _, _, h => by cases h
  | k + 1, s, t, p, h => by
    rw [expandPath] at h
    split at h
    · cases h
    · next n u hn =>
      obtain ⟨hs, hi⟩ := simpleIdentifier_sound hn
      split at h
      · next v hv =>
        cases hr : expandPath T k v with
        | error e => rw [hr] at h; cases h
        | ok r =>
          obtain ⟨q, w⟩ := r
          rw [hr] at h
          injection h with h
          injection h with h1 h2
          dsimp only at h1 h2
          subst h1 h2
          obtain ⟨h3, h4, h5⟩ := expandPath_sound hr
          refine ⟨by simp, ?_, ?_⟩
          · intro x hx
            rcases List.mem_cons.1 hx with rfl | hx
            · exact hi
            · exact h4 x hx
          · rw [hs, parseChar_some hv, h5, join_cons h3]
            simp
      · injection h with h
        injection h with h1 h2
        subst h1 h2
        exact ⟨by simp, by simpa using hi, hs⟩

theorem expandLoop_sound {T : Tables} : ∀ {k : Nat} {f g : Forest} {s : Str}, expandLoop T k f s = .ok g →
    ∃ ps, ps ≠ [] ∧ (∀ p ∈ ps, p ≠ [] ∧ ∀ n ∈ p, Ident T n) ∧ s = Py.join ',' (ps.map (Py.join '/'))
  | 0, _, _, _, h => by cases h
  | k + 1, f, g, s, h => by
    rw [expandLoop] at h
    split at h
    · cases h
    · next p t hp =>
      obtain ⟨h1, h2, h3⟩ := expandPath_sound hp
      split at h
      · next u hu =>
        obtain ⟨ps, h4, h5, h6⟩ := expandLoop_sound h
        refine ⟨p :: ps, by simp, ?_, ?_⟩
        · intro x hx
          rcases List.mem_cons.1 hx with rfl | hx
          · exact ⟨h1, h2⟩
          · exact h5 x hx
        · rw [h3, parseChar_some hu, h6, List.map_cons, join_cons (by simpa using h4)]
      · split at h
        · next ht =>
          refine ⟨[p], by simp, by simpa using ⟨h1, h2⟩, ?_⟩
          rw [h3, ht]
          simp [Py.join]
        · cases h

/-- Only `ValueError` is raised. -/
theorem expandPath_error {T : Tables} : ∀ {k : Nat} {s : Str} {e : Fault}, s.length < k → expandPath T k s = .error e →
    e = .valueError
  | 0, _, _, h, _ => by omega
  | k + 1, s, e, hk, h => by
    rw [expandPath] at h
    split at h
    · injection h with h; exact h.symm
    · next n u hn =>
      obtain ⟨hs, hi⟩ := simpleIdentifier_sound hn
      split at h
      · next v hv =>
        cases hr : expandPath T k v with
        | ok r => rw [hr] at h; cases h
        | error e' =>
          rw [hr] at h
          injection h with h
          subst h
          refine expandPath_error ?_ hr
          have := congrArg List.length hs
          rw [parseChar_some hv, List.length_append, List.length_cons] at this
          omega
      · cases h

theorem expandLoop_error {T : Tables} : ∀ {k : Nat} {f : Forest} {s : Str} {e : Fault}, s.length < k →
    expandLoop T k f s = .error e → e = .valueError
  | 0, _, _, _, h, _ => by omega
  | k + 1, f, s, e, hk, h => by
    rw [expandLoop] at h
    split at h
    · next e' he => injection h with h; subst h; exact expandPath_error (by omega) he
    · next p t hp =>
      obtain ⟨_, _, h3⟩ := expandPath_sound hp
      split at h
      · next u hu =>
        refine expandLoop_error ?_ h
        have := congrArg List.length h3
        rw [parseChar_some hu, List.length_append, List.length_cons] at this
        omega
      · split at h
        · cases h
        · injection h with h; exact h.symm

/-! ## Selection -/

theorem wsp_split (s : Str) : ∃ w, Blank w ∧ s = w ++ wsp s := by
  refine ⟨s.takeWhile isWsp, ?_, (List.takeWhile_append_dropWhile ..).symm⟩
  intro c hc
  have : ∀ s : Str, c ∈ s.takeWhile isWsp → isWsp c = true := by
    intro s
    induction s with
    | nil => intro h; cases h
    | cons d s ih =>
      rw [List.takeWhile_cons]
      split
      · next hd =>
        intro h
        rcases List.mem_cons.1 h with rfl | h
        · exact hd
        · exact ih h
      · intro h; cases h
  simpa [isWsp] using this s hc

theorem ident_noWsp {T : Tables} {n t : Str} (h : Ident T n) : NoHead isWsp (n ++ t) := by
  refine noHead_append (ident_ne h) (fun c hc => ?_)
  unfold isWsp
  rw [Bool.or_eq_false_iff]
  constructor
  · rw [beq_eq_false_iff_ne]; rintro rfl; exact ident_not_mem (by decide) (by decide) (by decide) h hc
  · rw [beq_eq_false_iff_ne]; rintro rfl; exact ident_not_mem (by decide) (by decide) (by decide) h hc

theorem starOrIdent_wsp (T : Tables) {s s' : Str} (h : wsp s = wsp s') : starOrIdent T s = starOrIdent T s' := by
  unfold starOrIdent
  rw [h]

theorem starOrIdent_star {T : Tables} {w t : Str} (hw : Blank w) : starOrIdent T (w ++ '*' :: t) = some (['*'], t) := by
  unfold starOrIdent
  rw [wsp_blank hw, wsp_of (noHead_cons (by decide)), parseChar_self]

theorem starOrIdent_name {T : Tables} {w n t : Str} (hw : Blank w) (hn : Ident T n) (ht : Ends T t) :
    starOrIdent T (w ++ (n ++ t)) = some (n, t) := by
  unfold starOrIdent
  rw [wsp_blank hw, wsp_of (ident_noWsp hn), parseChar_none, ident_read hn ht.1 ht.2]
  refine noHead_append (ident_ne hn) (fun c hc => ?_)
  rw [beq_eq_false_iff_ne]
  rintro rfl
  exact ident_not_mem (by decide) (by decide) (by decide) hn hc

theorem starOrIdent_sound {T : Tables} {s n t : Str} (h : starOrIdent T s = some (n, t)) :
    ∃ w, Blank w ∧ s = w ++ (n ++ t) ∧ (n = ['*'] ∨ Ident T n) := by
  obtain ⟨w, hw, hs⟩ := wsp_split s
  unfold starOrIdent at h
  split at h
  · next u hu =>
    injection h with h
    injection h with h1 h2
    subst h1 h2
    exact ⟨w, hw, by rw [parseChar_some hu] at hs; exact hs, Or.inl rfl⟩
  · obtain ⟨h1, h2⟩ := simpleIdentifier_sound h
    exact ⟨w, hw, by rw [← h1]; exact hs, Or.inr h2⟩

theorem selectPath_wsp (T : Tables) (k : Nat) {s s' : Str} (h : wsp s = wsp s') : selectPath T k s = selectPath T k s' := by
  cases k with
  | zero => rfl
  | succ k => rw [selectPath, selectPath, starOrIdent_wsp T h]

theorem selectPath_length {T : Tables} {t : Str} {p : List Str} (h : SelectPath T t p) : p.length ≤ t.length := by
  induction h with
  | star _ => simp
  | @name w n _ hn =>
    have := List.length_pos_iff.2 (ident_ne hn)
    simp only [List.length_append, List.length_cons, List.length_nil]
    omega
  | more _ _ _ ih =>
    simp only [List.length_append, List.length_cons]
    omega

theorem selectPath_reads {T : Tables} {t rest : Str} {p : List Str} (h : SelectPath T t p) (he : Ends T rest)
    (hs : NoHead (· == '/') rest) : ∀ {k : Nat}, p.length ≤ k → selectPath T k (t ++ rest) = .ok (p, rest) := by
  induction h with
  | star hw =>
    intro k hk
    cases k with
    | zero => simp at hk
    | succ k =>
      rw [List.append_assoc, selectPath]
      show (match starOrIdent T (_ ++ '*' :: rest) with | none => _ | some (n, t) => _) = _
      rw [starOrIdent_star hw]
      rfl
  | name hw hn =>
    intro k hk
    cases k with
    | zero => simp at hk
    | succ k =>
      rw [List.append_assoc, selectPath, starOrIdent_name hw hn he]
      dsimp only
      rw [if_neg (ident_not_star hn), parseChar_none hs]
  | @more w n u p hw hn _ ih =>
    intro k hk
    cases k with
    | zero => simp at hk
    | succ k =>
      rw [List.append_assoc, List.append_assoc, selectPath,
        starOrIdent_name hw hn (t := ('/' :: u) ++ rest) (ends_cons (by decide) (by decide) (by decide))]
      dsimp only
      rw [if_neg (ident_not_star hn), List.cons_append, parseChar_self]
      dsimp only
      rw [ih (by simpa using hk)]
      rfl

theorem selectPath_sound {T : Tables} : ∀ {k : Nat} {s t : Str} {p : List Str}, selectPath T k s = .ok (p, t) →
    ∃ u, s = u ++ t ∧ SelectPath T u p
  | 0, _, _, _, h => by cases h
  | k + 1, s, t, p, h => by
    rw [selectPath] at h
    split at h
    · cases h
    · next n u hn =>
      obtain ⟨w, hw, hs, hi⟩ := starOrIdent_sound hn
      split at h
      · next hx =>
        injection h with h
        injection h with h1 h2
        subst h1 h2 hx
        exact ⟨w ++ ['*'], by rw [hs]; simp, .star hw⟩
      · next hx =>
        have hi := hi.resolve_left hx
        split at h
        · next v hv =>
          cases hr : selectPath T k v with
          | error e => rw [hr] at h; cases h
          | ok r =>
            obtain ⟨q, x⟩ := r
            rw [hr] at h
            injection h with h
            injection h with h1 h2
            dsimp only at h1 h2
            subst h1 h2
            obtain ⟨y, h3, h4⟩ := selectPath_sound hr
            exact ⟨w ++ (n ++ '/' :: y), by rw [hs, parseChar_some hv, h3]; simp, .more hw hi h4⟩
        · injection h with h
          injection h with h1 h2
          subst h1 h2
          exact ⟨w ++ n, by rw [hs]; simp, .name hw hi⟩

theorem selectPath_error {T : Tables} : ∀ {k : Nat} {s : Str} {e : Fault}, s.length < k → selectPath T k s = .error e →
    e = .valueError
  | 0, _, _, h, _ => by omega
  | k + 1, s, e, hk, h => by
    rw [selectPath] at h
    split at h
    · injection h with h; exact h.symm
    · next n u hn =>
      obtain ⟨w, hw, hs, hi⟩ := starOrIdent_sound hn
      split at h
      · cases h
      · split at h
        · next v hv =>
          cases hr : selectPath T k v with
          | ok r => rw [hr] at h; cases h
          | error e' =>
            rw [hr] at h
            injection h with h
            subst h
            refine selectPath_error ?_ hr
            have := congrArg List.length hs
            rw [parseChar_some hv, List.length_append, List.length_append, List.length_cons] at this
            omega
        · cases h

theorem selectLoop_reads {T : Tables} {t : Str} {ps : List (List Str)} (h : SelectList T t ps) :
    ∀ {k : Nat} {f : Forest}, ps.length ≤ k → selectLoop T k f t = .ok (ps.foldl (fun f p => f.insert p) f) := by
  induction h with
  | @last t w p hp hw =>
    intro k f hk
    cases k with
    | zero => simp at hk
    | succ k =>
      have hl := selectPath_length hp
      have he : Ends T w := by
        by_cases h0 : w = []
        · subst h0; exact ⟨noHead_nil, noHead_nil⟩
        · have := blank_ends (T := T) (t := []) hw h0; rwa [List.append_nil] at this
      have hn : NoHead (· == '/') w := by
        intro c u hc
        rcases hw c (by simp [hc]) with rfl | rfl <;> decide
      have hww : wsp w = [] := by have := wsp_blank (s := []) hw; rw [List.append_nil] at this; exact this
      rw [selectLoop, selectPath_wsp T _ (wsp_wsp _), selectPath_reads hp he hn (by simp only [List.length_append]; omega)]
      dsimp only
      rw [hww]
      rfl
  | @more t w u p ps hp hw hr ih =>
    intro k f hk
    cases k with
    | zero => simp at hk
    | succ k =>
      have hl := selectPath_length hp
      have he : Ends T (w ++ ',' :: u) := by
        by_cases h0 : w = []
        · subst h0; exact ends_cons (by decide) (by decide) (by decide)
        · exact blank_ends hw h0
      have hn : NoHead (· == '/') (w ++ ',' :: u) := by
        intro c v hc
        cases w with
        | nil => injection hc with hc _; subst hc; decide
        | cons d w => injection hc with hc _; subst hc; rcases hw d (by simp) with rfl | rfl <;> decide
      rw [selectLoop, selectPath_wsp T _ (wsp_wsp _), selectPath_reads hp he hn (by simp only [List.length_append]; omega)]
      dsimp only
      rw [wsp_blank hw, wsp_of (noHead_cons (by decide)), parseChar_self]
      dsimp only
      rw [ih (by simpa using hk)]
      rfl

theorem selectList_length {T : Tables} {t : Str} {ps : List (List Str)} (h : SelectList T t ps) : ps.length ≤ t.length + 1 := by
  induction h with
  | last _ _ => simp
  | more _ _ _ ih =>
    simp only [List.length_append, List.length_cons]
    omega

theorem selectLoop_sound {T : Tables} : ∀ {k : Nat} {f g : Forest} {s : Str}, selectLoop T k f s = .ok g →
    ∃ ps, SelectList T s ps
  | 0, _, _, _, h => by cases h
  | k + 1, f, g, s, h => by
    rw [selectLoop, selectPath_wsp T _ (wsp_wsp _)] at h
    split at h
    · cases h
    · next p t hp =>
      obtain ⟨u, h1, h2⟩ := selectPath_sound hp
      obtain ⟨w, hw, hs⟩ := wsp_split t
      split at h
      · next v hv =>
        obtain ⟨ps, h3⟩ := selectLoop_sound h
        refine ⟨p :: ps, ?_⟩
        rw [h1, hs, parseChar_some hv]
        exact .more h2 hw h3
      · split at h
        · next ht =>
          refine ⟨[p], ?_⟩
          rw [h1, hs, ht, List.append_nil]
          exact .last h2 hw
        · cases h

theorem selectLoop_error {T : Tables} : ∀ {k : Nat} {f : Forest} {s : Str} {e : Fault}, s.length < k →
    selectLoop T k f s = .error e → e = .valueError
  | 0, _, _, _, h, _ => by omega
  | k + 1, f, s, e, hk, h => by
    rw [selectLoop, selectPath_wsp T _ (wsp_wsp _)] at h
    split at h
    · next e' he => injection h with h; subst h; exact selectPath_error (by omega) he
    · next p t hp =>
      obtain ⟨u, h1, _⟩ := selectPath_sound hp
      obtain ⟨w, _, hs⟩ := wsp_split t
      split at h
      · next v hv =>
        refine selectLoop_error ?_ h
        have := congrArg List.length h1
        rw [List.length_append, hs, parseChar_some hv, List.length_append, List.length_cons] at this
        omega
      · split at h
        · cases h
        · injection h with h; exact h.symm

/-! ## Writing -/

/-- The longest paths of the dictionaries. -/
def Forest.paths : Forest → List (List Str)
  | .nil => []
  | .cons n .nil r => [n] :: r.paths
  | .cons n (.cons m s t) r => ((Forest.cons m s t).paths.map fun x => n :: x) ++ r.paths

theorem paths_ne : ∀ {f : Forest} {p : List Str}, p ∈ f.paths → p ≠ []
  | .nil, _, h => by cases h
  | .cons n .nil r, p, h => by
    rcases List.mem_cons.1 h with rfl | h
    · simp
    · exact paths_ne h
  | .cons n (.cons m s t) r, p, h => by
    rcases List.mem_append.1 h with h | h
    · obtain ⟨x, _, rfl⟩ := List.mem_map.1 h
      simp
    · exact paths_ne h

theorem leaves_paths : ∀ (f : Forest), f.leaves = f.paths.map (Py.join '/')
  | .nil => rfl
  | .cons n .nil r => by
    rw [Forest.leaves, Forest.paths, List.map_cons, leaves_paths r]
    rfl
  | .cons n (.cons m s t) r => by
    rw [Forest.leaves, Forest.paths, List.map_append, leaves_paths r, leaves_paths (.cons m s t), List.map_map, List.map_map]
    congr 1
    apply List.map_congr_left
    intro x hx
    exact (join_cons (paths_ne hx)).symm

theorem paths_nonempty : ∀ {n : Str} {s r : Forest}, (Forest.cons n s r).paths ≠ []
  | _, .nil, _ => by simp [Forest.paths]
  | _, .cons m s t, _ => by simp [Forest.paths, paths_nonempty (n := m) (s := s) (r := t)]

theorem has_paths : ∀ {f : Forest} {q : List Str}, Has f q ↔ q = [] ∨ ∃ p ∈ f.paths, q <+: p
  | f, [] => by simp [has_nil]
  | .nil, m :: q => by simp [Has, Forest.paths]
  | .cons n .nil r, m :: q => by
    simp only [Has, nil_has, has_paths (f := r) (q := m :: q), Forest.paths, List.mem_cons, exists_eq_or_imp,
      List.cons_prefix_cons, List.prefix_nil]
    simp only [reduceCtorEq, false_or]
    constructor
    · rintro (⟨rfl, rfl⟩ | h)
      · exact Or.inl ⟨rfl, rfl⟩
      · exact Or.inr h
    · rintro (⟨rfl, rfl⟩ | h)
      · exact Or.inl ⟨rfl, rfl⟩
      · exact Or.inr h
  | .cons n (.cons k s t) r, m :: q => by
    have ih := has_paths (f := .cons k s t) (q := q)
    rw [Has, ih, has_paths (f := r) (q := m :: q)]
    simp only [Forest.paths, List.mem_append, List.mem_map, reduceCtorEq, false_or]
    constructor
    · rintro (⟨rfl, rfl | ⟨p, h1, h2⟩⟩ | ⟨p, h1, h2⟩)
      · cases hp : (Forest.cons k s t).paths with
        | nil => exact absurd hp paths_nonempty
        | cons p ps => exact ⟨n :: p, Or.inl ⟨p, by simp, rfl⟩, by simp⟩
      · exact ⟨n :: p, Or.inl ⟨p, h1, rfl⟩, by simpa using h2⟩
      · exact ⟨p, Or.inr h1, h2⟩
    · rintro ⟨p, ⟨x, h1, rfl⟩ | h1, h2⟩
      · rw [List.cons_prefix_cons] at h2
        exact Or.inl ⟨h2.1.symm, Or.inr ⟨x, h1, h2.2⟩⟩
      · exact Or.inr ⟨p, h1, h2⟩

theorem names_has {f : Forest} {n : Str} : n ∈ names f ↔ Has f [n] := by
  induction f with
  | nil => simp [names, Has]
  | cons m s r _ ih => simp [names, Has, has_nil, ih, eq_comm]

theorem has_prefix {f : Forest} {q p : List Str} (h : Has f p) (hq : q <+: p) : Has f q := by
  rcases has_paths.1 h with rfl | ⟨x, h1, h2⟩
  · rw [List.prefix_nil] at hq; subst hq; exact has_nil f
  · exact has_paths.2 (Or.inr ⟨x, h1, hq.trans h2⟩)

/-- In dictionaries the longest paths are those that cannot be prolonged. -/
theorem mem_paths : ∀ {f : Forest} {p : List Str}, Dictionary f →
    (p ∈ f.paths ↔ p ≠ [] ∧ Has f p ∧ ∀ n, ¬ Has f (p ++ [n]))
  | f, [], _ => by
    simp only [ne_eq, not_true_eq_false, false_and, iff_false]
    intro h
    exact paths_ne h rfl
  | .nil, m :: q, _ => by simp [Has, Forest.paths]
  | .cons n s r, m :: q, ⟨h1, h2, h3⟩ => by
    have ihr := mem_paths (f := r) (p := m :: q) h3
    have key : (m :: q ∈ (Forest.cons n s r).paths) ↔ (m = n ∧ ((s = .nil ∧ q = []) ∨ q ∈ s.paths)) ∨ m :: q ∈ r.paths := by
      cases s with
      | nil => simp [Forest.paths]
      | cons k t u =>
        simp only [Forest.paths, List.mem_append, List.mem_map, List.cons.injEq, reduceCtorEq, false_and, false_or]
        constructor
        · rintro (⟨x, h, rfl, rfl⟩ | h)
          · exact Or.inl ⟨rfl, h⟩
          · exact Or.inr h
        · rintro (⟨rfl, h⟩ | h)
          · exact Or.inl ⟨q, h, rfl, rfl⟩
          · exact Or.inr h
    have hnr : ∀ x, Has r (n :: x) → False := by
      intro x hx
      exact h1 (names_has.2 (has_prefix hx (by simp)))
    rw [key, ihr]
    simp only [ne_eq, reduceCtorEq, not_false_eq_true, true_and, List.cons_append, Has]
    constructor
    · rintro (⟨rfl, h | h⟩ | ⟨h4, h5⟩)
      · obtain ⟨rfl, rfl⟩ := h
        refine ⟨Or.inl ⟨rfl, trivial⟩, fun x hx => ?_⟩
        rcases hx with ⟨_, hx⟩ | hx
        · exact hx
        · exact hnr _ hx
      · obtain ⟨_, h4, h5⟩ := (mem_paths h2).1 h
        refine ⟨Or.inl ⟨rfl, h4⟩, fun x hx => ?_⟩
        rcases hx with ⟨_, hx⟩ | hx
        · exact h5 x hx
        · exact hnr _ hx
      · refine ⟨Or.inr h4, fun x hx => ?_⟩
        rcases hx with ⟨rfl, _⟩ | hx
        · exact hnr _ h4
        · exact h5 x hx
    · rintro ⟨⟨rfl, h4⟩ | h4, h5⟩
      · refine Or.inl ⟨rfl, ?_⟩
        by_cases hq : q = []
        · subst hq
          cases s with
          | nil => exact Or.inl ⟨rfl, rfl⟩
          | cons k t u => exact absurd (Or.inl ⟨rfl, by simp [Has, has_nil]⟩) (h5 k)
        · exact Or.inr ((mem_paths h2).2 ⟨hq, h4, fun x hx => h5 x (Or.inl ⟨rfl, hx⟩)⟩)
      · exact Or.inr ⟨h4, fun x hx => h5 x (Or.inr hx)⟩

theorem paths_names : ∀ {f : Forest} {n : Str} {p : List Str}, n :: p ∈ f.paths → n ∈ names f := by
  intro f n p h
  exact names_has.2 (has_paths.2 (Or.inr ⟨n :: p, h, by simp⟩))

theorem paths_nodup : ∀ {f : Forest}, Dictionary f → f.paths.Nodup
  | .nil, _ => by simp [Forest.paths]
  | .cons n .nil r, ⟨h1, _, h3⟩ => by
    rw [Forest.paths, List.nodup_cons]
    exact ⟨fun h => h1 (paths_names h), paths_nodup h3⟩
  | .cons n (.cons m s t) r, ⟨h1, h2, h3⟩ => by
    rw [Forest.paths, List.nodup_append]
    refine ⟨?_, paths_nodup h3, ?_⟩
    · rw [List.Nodup, List.pairwise_map]
      exact (paths_nodup h2).imp (fun h he => h (by injection he))
    · intro a ha b hb hab
      obtain ⟨x, _, rfl⟩ := List.mem_map.1 ha
      subst hab
      exact h1 (paths_names hb)

theorem strLe_total : ∀ (a b : Str), strLe a b = true ∨ strLe b a = true
  | [], _ => Or.inl rfl
  | _ :: _, [] => Or.inr rfl
  | a :: s, b :: t => by
    have := strLe_total s t
    simp only [strLe, Bool.or_eq_true, Bool.and_eq_true, decide_eq_true_eq, beq_iff_eq]
    rcases Nat.lt_trichotomy a.toNat b.toNat with h | h | h
    · exact Or.inl (Or.inl h)
    · rcases this with h' | h'
      · exact Or.inl (Or.inr ⟨h, h'⟩)
      · exact Or.inr (Or.inr ⟨h.symm, h'⟩)
    · exact Or.inr (Or.inl h)

theorem strLe_trans : ∀ (a b c : Str), strLe a b = true → strLe b c = true → strLe a c = true
  | [], _, _, _, _ => rfl
  | _ :: _, [], _, h, _ => by cases h
  | _ :: _, _ :: _, [], _, h => by cases h
  | a :: s, b :: t, c :: u, h, h' => by
    have := strLe_trans s t u
    simp only [strLe, Bool.or_eq_true, Bool.and_eq_true, decide_eq_true_eq, beq_iff_eq] at h h' ⊢
    rcases h with h | ⟨h1, h2⟩ <;> rcases h' with h' | ⟨h3, h4⟩
    · exact Or.inl (by omega)
    · exact Or.inl (by omega)
    · exact Or.inl (by omega)
    · exact Or.inr ⟨by omega, this h2 h4⟩

theorem strLe_antisymm : ∀ (a b : Str), strLe a b = true → strLe b a = true → a = b
  | [], [], _, _ => rfl
  | [], _ :: _, _, h => by cases h
  | _ :: _, [], h, _ => by cases h
  | a :: s, b :: t, h, h' => by
    have := strLe_antisymm s t
    simp only [strLe, Bool.or_eq_true, Bool.and_eq_true, decide_eq_true_eq, beq_iff_eq] at h h'
    rcases h with h | ⟨h1, h2⟩ <;> rcases h' with h' | ⟨h3, h4⟩
    · omega
    · omega
    · omega
    · rw [this h2 h4, Char.toNat_inj.1 h1]

theorem strLe_comparison : Spec.Paging.Comparison strLe := ⟨strLe_total, strLe_trans⟩

/-- The sorted text depends only on the paths. -/
theorem sort_perm {l l' : List Str} (h : l.Perm l') : Paging.stableSort strLe l = Paging.stableSort strLe l' :=
  List.Perm.eq_of_pairwise (le := fun a b => strLe a b = true) (fun a b _ _ => strLe_antisymm a b)
    (Paging.stableSort_sorted strLe_comparison l) (Paging.stableSort_sorted strLe_comparison l')
    ((Paging.stableSort_perm l).trans (h.trans (Paging.stableSort_perm l').symm))

theorem format_same {f g : Forest} (hf : Dictionary f) (hg : Dictionary g) (h : ∀ q, Has f q ↔ Has g q) :
    formatExpand f = formatExpand g := by
  have hp : f.paths.Perm g.paths := by
    rw [List.perm_ext_iff_of_nodup (paths_nodup hf) (paths_nodup hg)]
    intro p
    rw [mem_paths hf, mem_paths hg]
    simp only [h]
  unfold formatExpand
  rw [leaves_paths, leaves_paths, sort_perm (hp.map _)]

theorem paths_expand {T : Tables} : ∀ {f : Forest}, ExpandNames T f → ∀ p ∈ f.paths, ∀ n ∈ p, Ident T n
  | .nil, _, _, h => by cases h
  | .cons n .nil r, ⟨h1, _, h3⟩, p, h => by
    rcases List.mem_cons.1 h with rfl | h
    · simpa using h1
    · exact paths_expand h3 p h
  | .cons n (.cons m s t) r, ⟨h1, h2, h3⟩, p, h => by
    rcases List.mem_append.1 h with h | h
    · obtain ⟨x, hx, rfl⟩ := List.mem_map.1 h
      intro k hk
      rcases List.mem_cons.1 hk with rfl | hk
      · exact h1
      · exact paths_expand h2 x hx k hk
    · exact paths_expand h3 p h

theorem nil_select {T : Tables} {p : List Str} {n : Str} (hn : Ident T n) (h : SelectPath T (Py.join '/' p) p) :
    SelectPath T (Py.join '/' (n :: p)) (n :: p) := by
  have hp : ∀ {t : Str} {p : List Str}, SelectPath T t p → p ≠ [] := by intro t p h; cases h <;> simp
  rw [join_cons (hp h)]
  exact .more (w := []) nil_blank hn h

theorem paths_select {T : Tables} : ∀ {f : Forest}, SelectNames T f → ∀ p ∈ f.paths, SelectPath T (Py.join '/' p) p
  | .nil, _, _, h => by cases h
  | .cons n .nil r, ⟨h1, h3⟩, p, h => by
    rcases List.mem_cons.1 h with rfl | h
    · rcases h1 with ⟨h1, _⟩ | ⟨rfl, _⟩
      · exact .name (w := []) nil_blank h1
      · exact .star (w := []) nil_blank
    · exact paths_select h3 p h
  | .cons n (.cons m s t) r, ⟨h1, h3⟩, p, h => by
    have h1 := h1.resolve_right (by simp)
    rcases List.mem_append.1 h with h | h
    · obtain ⟨x, hx, rfl⟩ := List.mem_map.1 h
      exact nil_select h1.1 (paths_select h1.2 x hx)
    · exact paths_select h3 p h

theorem list_select {T : Tables} : ∀ {ps : List (List Str)}, ps ≠ [] → (∀ p ∈ ps, SelectPath T (Py.join '/' p) p) →
    SelectList T (Py.join ',' (ps.map (Py.join '/'))) ps
  | [], h, _ => absurd rfl h
  | [p], _, h => by
    have := SelectList.last (w := []) (h p (by simp)) nil_blank
    rw [List.append_nil] at this
    simpa [Py.join] using this
  | p :: q :: ps, _, h => by
    rw [List.map_cons, join_cons (by simp)]
    exact .more (w := []) (h p (by simp)) nil_blank (list_select (by simp) (fun x hx => h x (by simp [hx])))

/-- What is written is the list of the longest paths, in some order. -/
theorem format_paths (f : Forest) : ∃ ps : List (List Str), ps.Perm f.paths ∧ formatExpand f = Py.join ',' (ps.map (Py.join '/')) := by
  refine ⟨Paging.stableSort (fun a b => strLe (Py.join '/' a) (Py.join '/' b)) f.paths, Paging.stableSort_perm _, ?_⟩
  unfold formatExpand
  rw [leaves_paths, MemStore.stableSort_map]

theorem perm_lists {f : Forest} {ps : List (List Str)} (h : ps.Perm f.paths) (q : List Str) :
    (q = [] ∨ ∃ p ∈ ps, q <+: p) ↔ Has f q := by
  rw [has_paths]
  simp only [h.mem_iff]

/-! ## Order -/

theorem Reads.stops {T : Tables} {k : Nat} {t : Str} {e : Expr} (h : Reads T k t e) {r s : Str} (hr : Stop r)
    (hn : nextOp T r = (none, s)) : C T [] (t ++ r) = .ok (some e, s) := by
  obtain ⟨q, x, h1, _, h3⟩ := h.2 [] r hr (by intro l tl h; cases h)
  rw [h1, cont, hn, List.append_nil]
  simp only [h3]

/-- A word that is no operator ends the expression. -/
theorem nextOp_word {T : Tables} {w d r : Str} (hw : Blank w) (h0 : d ≠ []) (hd : ∀ c ∈ d, Py.isLetter c = true)
    (ho : Oper.decode d = none) (hr : Ends T r) : nextOp T (w ++ (d ++ r)) = (none, d ++ r) := by
  unfold nextOp
  rw [wsp_blank hw, wsp_of (letter_noWsp h0 hd)]
  split
  · next he =>
    cases d with
    | nil => exact absurd rfl h0
    | cons c n =>
      injection he with he _
      have := hd c (by simp)
      subst he
      exact absurd this (by decide)
  · rw [ident_read (letters_ident h0 hd) hr.1 hr.2]
    dsimp only
    rw [ho]

theorem decode_none {d low : Str} (h : Py.lower d = low) (h1 : ∀ o ∈ Oper.all, Py.lower o.name ≠ low)
    (h2 : ∀ o ∈ Oper.aliases, Py.lower o.1 ≠ low) : Oper.decode d = none := by
  unfold Oper.decode
  rw [Option.or_eq_none_iff]
  constructor
  · rw [List.find?_eq_none]
    intro o ho hn
    exact h1 o ho (by rw [of_decide_eq_true hn, h])
  · rw [Option.map_eq_none_iff, List.find?_eq_none]
    intro o ho hn
    exact h2 o ho (by rw [of_decide_eq_true hn, h])

theorem asc_none {d : Str} (h : Py.lower d = "asc".toList) : Oper.decode d = none :=
  decode_none h (by decide +kernel) (by decide +kernel)

theorem desc_none {d : Str} (h : Py.lower d = "desc".toList) : Oper.decode d = none :=
  decode_none h (by decide +kernel) (by decide +kernel)

/-- What ends a rule. -/
def Over (s : Str) : Prop := s = [] ∨ ∃ t, s = ',' :: t

theorem over_noWsp {s : Str} (h : Over s) : NoHead isWsp s := by
  rcases h with rfl | ⟨t, rfl⟩
  · exact noHead_nil
  · exact noHead_cons (by decide)

theorem over_ends {T : Tables} {w s : Str} (hw : Blank w) (h : Over s) : Ends T (w ++ s) := by
  by_cases h0 : w = []
  · subst h0
    rcases h with rfl | ⟨t, rfl⟩
    · exact ⟨noHead_nil, noHead_nil⟩
    · exact ends_cons (by decide) (by decide) (by decide)
  · exact blank_ends hw h0

theorem direction_over {s : Str} (h : Over s) : direction s = (true, s) := by
  rcases h with rfl | ⟨t, rfl⟩
  · rfl
  · unfold direction
    rw [noInsensitive (by decide), noInsensitive (by decide)]

theorem direction_asc {d r : Str} (h : Py.lower d = "asc".toList) : direction (d ++ r) = (true, r) := by
  unfold direction
  rw [parseInsensitive_of (low := ['a', 's', 'c']) h (by decide)]

theorem direction_desc {d r : Str} (h : Py.lower d = "desc".toList) : direction (d ++ r) = (false, r) := by
  unfold direction
  have h1 : parseInsensitive ['a', 's', 'c'] (d ++ r) = none := by
    cases d with
    | nil => cases h
    | cons c d =>
      refine noInsensitive ?_
      have : Py.lowerChar c :: Py.lower d = "desc".toList := h
      injection this with h _
      rw [h]
      decide
  rw [h1, parseInsensitive_of (low := ['d', 'e', 's', 'c']) h (by decide)]

theorem word_facts {d low : Str} (h : Py.lower d = low) (h0 : low ≠ []) (hl : ∀ c ∈ low, Py.isLetter c = true) :
    d ≠ [] ∧ ∀ c ∈ d, Py.isLetter c = true := by
  refine ⟨?_, lower_letters h hl⟩
  rintro rfl
  exact h0 h.symm

theorem word_common {T : Tables} {t w' d w'' s low : Str} {e : Expr} (h : Denotes T 2 t e) (hw' : Blank w') (h0 : w' ≠ [])
    (hd : Py.lower d = low) (hl0 : low ≠ []) (hl : ∀ c ∈ low, Py.isLetter c = true) (hdec : Oper.decode d = none) (hw'' : Blank w'') (hs : Over s) :
    C T [] (t ++ (w' ++ (d ++ (w'' ++ s)))) = .ok (some e, d ++ (w'' ++ s)) := by
  obtain ⟨h1, h2⟩ := word_facts hd hl0 hl
  refine (denotes_reads h).stops (stop_blank hw' (letter_noWsp h1 h2) (Or.inr h0) ?_)
    (nextOp_word hw' h1 h2 hdec (over_ends hw'' hs))
  refine noHead_append h1 (fun c hc => ?_)
  have := h2 c hc
  rw [beq_eq_false_iff_ne]
  rintro rfl
  exact absurd this (by decide)

/-- The body of the loop with the fuel that suffices. -/
theorem orderLoop_succ (T : Tables) (k : Nat) (s : Str) : orderLoop T (k + 1) s =
    match C T [] s with
    | .error e => .error e
    | .ok (none, _) => .error .valueError
    | .ok (some e, t) =>
      match parseChar ',' (wsp (direction (wsp t)).2) with
      | some u => (orderLoop T k u).map fun r => (e, (direction (wsp t)).1) :: r
      | none => if wsp (direction (wsp t)).2 = [] then .ok [(e, (direction (wsp t)).1)] else .error .valueError := by
  rw [orderLoop, C_wsp T [] (wsp_wsp s).symm]
  rfl

/-- Reading one rule. -/
theorem rule_reads {T : Tables} {t s : Str} {r : Expr × Bool} (h : OrderRule T t r) (hs : Over s) : ∃ u, C T [] (t ++ s) = .ok (some r.1, u) ∧
    (direction (wsp u)).1 = r.2 ∧ wsp (direction (wsp u)).2 = s := by
  have hov := wsp_of (over_noWsp hs)
  cases h with
  | plain hd hw hw' =>
    refine ⟨s, ?_, ?_, ?_⟩
    · rw [List.append_assoc, List.append_assoc]
      exact (denotes_reads hd).blank hw hw' (hs.imp id (fun ⟨t, h⟩ => ⟨t, Or.inr h⟩))
    · rw [hov, direction_over hs]
    · rw [hov, direction_over hs, hov]
  | @asc w t w' d w'' e hd hw hw' h0 hl hw'' =>
    obtain ⟨h1, h2⟩ := word_facts hl (by decide) (by decide +kernel)
    refine ⟨d ++ (w'' ++ s), ?_, ?_, ?_⟩
    · simp only [List.append_assoc]
      rw [C_wsp T [] (wsp_blank hw)]
      exact word_common hd hw' h0 hl (by decide) (by decide +kernel) (asc_none hl) hw'' hs
    · rw [wsp_of (letter_noWsp h1 h2), direction_asc hl]
    · rw [wsp_of (letter_noWsp h1 h2), direction_asc hl, wsp_blank hw'', hov]
  | @desc w t w' d w'' e hd hw hw' h0 hl hw'' =>
    obtain ⟨h1, h2⟩ := word_facts hl (by decide) (by decide +kernel)
    refine ⟨d ++ (w'' ++ s), ?_, ?_, ?_⟩
    · simp only [List.append_assoc]
      rw [C_wsp T [] (wsp_blank hw)]
      exact word_common hd hw' h0 hl (by decide) (by decide +kernel) (desc_none hl) hw'' hs
    · rw [wsp_of (letter_noWsp h1 h2), direction_desc hl]
    · rw [wsp_of (letter_noWsp h1 h2), direction_desc hl, wsp_blank hw'', hov]

theorem orderLoop_reads {T : Tables} {t : Str} {rs : List (Expr × Bool)} (h : OrderList T t rs) :
    ∀ {k : Nat}, rs.length ≤ k → orderLoop T k t = .ok rs := by
  induction h with
  | @last t r hr =>
    intro k hk
    cases k with
    | zero => simp at hk
    | succ k =>
      obtain ⟨u, h1, h2, h3⟩ := rule_reads hr (s := []) (Or.inl rfl)
      rw [List.append_nil] at h1
      rw [orderLoop_succ, h1]
      dsimp only
      rw [h3, h2]
      rfl
  | @more t u r rs hr hrs ih =>
    intro k hk
    cases k with
    | zero => simp at hk
    | succ k =>
      obtain ⟨v, h1, h2, h3⟩ := rule_reads hr (s := ',' :: u) (Or.inr ⟨u, rfl⟩)
      rw [orderLoop_succ, h1]
      dsimp only
      rw [h3, h2, parseChar_self]
      dsimp only
      rw [ih (by simpa using hk)]
      rfl

theorem orderList_length {T : Tables} {t : Str} {rs : List (Expr × Bool)} (h : OrderList T t rs) : rs.length ≤ t.length + 1 := by
  induction h with
  | last _ => simp
  | more _ _ ih =>
    simp only [List.length_append, List.length_cons]
    omega

theorem order_text {T : Tables} {fin : Bool → Nat → Int → Str} : ∀ {l : List (Expr × Bool)}, l ≠ [] →
    (∀ r ∈ l, Printable T fin r.1) → ∃ t, orderText fin l = .ok t ∧ OrderList T t l := by
  have one : ∀ {r : Expr × Bool}, Printable T fin r.1 → ∃ t, ruleText fin r = .ok t ∧ ∀ w, Blank w → OrderRule T (w ++ t) r := by
    rintro ⟨e, b⟩ hp
    obtain ⟨t, h1, h2⟩ := printable_denotes hp
    have h2 := Denotes.down h2 (level_facts e).1
    have hb : Blank [' '] := by intro c hc; simp only [List.mem_singleton] at hc; exact Or.inl hc
    refine ⟨t ++ ' ' :: (if b then ['a', 's', 'c'] else ['d', 'e', 's', 'c']), by rw [ruleText, h1]; rfl, fun w hw => ?_⟩
    cases b with
    | true => exact .asc (w' := [' ']) (d := ['a', 's', 'c']) (w'' := []) h2 hw hb (by simp) (by decide) nil_blank
    | false => exact .desc (w' := [' ']) (d := ['d', 'e', 's', 'c']) (w'' := []) h2 hw hb (by simp) (by decide) nil_blank
  have hb : Blank [' '] := by intro c hc; simp only [List.mem_singleton] at hc; exact Or.inl hc
  have all : ∀ {l : List (Expr × Bool)}, l ≠ [] → (∀ r ∈ l, Printable T fin r.1) →
      ∃ ts : List Str, l.mapM (ruleText fin) = .ok ts ∧ ts ≠ [] ∧ ∀ w, Blank w → OrderList T (w ++ commaSpace ts) l := by
    intro l
    induction l with
    | nil => intro h; exact absurd rfl h
    | cons r l ih =>
      intro _ hp
      obtain ⟨t, h1, h2⟩ := one (hp r (by simp))
      cases l with
      | nil =>
        refine ⟨[t], ?_, by simp, fun w hw => .last (h2 w hw)⟩
        rw [List.mapM_cons, h1]
        rfl
      | cons r' l =>
        obtain ⟨ts, h3, h4, h5⟩ := ih (by simp) (fun x hx => hp x (by simp [hx]))
        refine ⟨t :: ts, ?_, by simp, fun w hw => ?_⟩
        · rw [List.mapM_cons, h1, h3]
          rfl
        · cases ts with
          | nil => exact absurd rfl h4
          | cons t' ts =>
            have : w ++ commaSpace (t :: t' :: ts) = (w ++ t) ++ ',' :: ([' '] ++ commaSpace (t' :: ts)) := by
              simp [commaSpace]
            rw [this]
            exact .more (h2 w hw) (h5 _ hb)
  intro l h0 hp
  obtain ⟨ts, h1, _, h3⟩ := all h0 hp
  exact ⟨commaSpace ts, by rw [orderText, h1]; rfl, h3 [] nil_blank⟩

theorem direction_le (s : Str) : (direction s).2.length ≤ s.length := by
  unfold direction
  split
  · next h => exact parseInsensitive_le h
  · split
    · next h => exact parseInsensitive_le h
    · exact Nat.le_refl _

theorem orderLoop_plain {T : Tables} : ∀ {k : Nat} {s : Str}, s.length < k → Plain (orderLoop T k s)
  | 0, _, h => by omega
  | k + 1, s, hk => by
    rw [orderLoop_succ]
    split
    · next e he => exact plain_error ((plain_common T _).1 [] s (Nat.le_refl _)) he
    · exact plain_value
    · next e t ht =>
      have hm := C_moves ht
      split
      · next u hu =>
        refine plain_map (orderLoop_plain ?_)
        have h1 := congrArg List.length (parseChar_some hu)
        have h2 := wsp_le (direction (wsp t)).2
        have h3 := direction_le (wsp t)
        have h4 := wsp_le t
        have h5 : t.length ≤ s.length := by
          rcases hm with ⟨_, _, h⟩ | ⟨h, _⟩
          · exact Nat.le_of_lt h
          · cases h
        rw [List.length_cons] at h1
        omega
      · exact plain_ite (plain_ok _) plain_value

end Verif.OData
