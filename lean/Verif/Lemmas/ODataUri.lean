import Verif.Spec.ODataUri
import Verif.Lemmas.Utf8
import Verif.Lemmas.ContentPackage
import Verif.Props.UriText

/-! # Lemmas on OData URIs -/

namespace Verif.OData

open Verif Verif.Spec.OData

/-! ## White space -/

theorem isSpace_uri {c : Char} (h : 0x21 ≤ c.toNat ∧ c.toNat ≤ 0x7E) : isSpace c = false := by
  unfold isSpace
  rw [Bool.or_eq_false_iff]
  constructor
  · rw [decide_eq_false_iff_not]
    simp only [List.mem_cons, List.not_mem_nil, or_false]
    omega
  · simp only [Bool.and_eq_false_iff, decide_eq_false_iff_not]
    omega

theorem dropWhile_none {p : Char → Bool} {s : Str} (h : ∀ c ∈ s, p c = false) : s.dropWhile p = s := by
  cases s with
  | nil => rfl
  | cons c s => rw [List.dropWhile_cons, if_neg (by rw [h c (by simp)]; simp)]

theorem strip_id {s : Str} (h : UriChars s) : strip s = s := by
  unfold strip
  rw [dropWhile_none (fun c hc => isSpace_uri (h c hc)),
    dropWhile_none (fun c hc => isSpace_uri (h c (List.mem_reverse.mp hc))), List.reverse_reverse]

theorem uriChars_cons {c : Char} {s : Str} (h : UriChars (c :: s)) : UriChars s := fun d hd => h d (List.mem_cons_of_mem _ hd)

theorem pathOpt_decode {t : Str} (h : UriChars t) (o : PathOpt) : PathOpt.decode t = some o ↔ Py.lower t = (pathWord o).toList := by
  unfold PathOpt.decode
  rw [strip_id h]
  generalize Py.lower t = w
  constructor
  · intro hf
    have := List.find?_some hf
    rw [decide_eq_true_iff] at this
    rw [← this]
    cases o <;> rfl
  · rintro rfl
    cases o <;> decide

/-! ## Shapes of paths -/

variable {split : Str → Except UriFault (Str × Keys)}

theorem shape_nil {q : Path} : PathShape split [] q ↔ q = ⟨[], none, none⟩ := by
  constructor
  · intro h
    generalize hs : ([] : List Str) = ss at h
    cases h with
    | names h1 h2 =>
      subst hs
      cases h2
      rfl
    | option => simp at hs
    | links => simp at hs
  · rintro rfl
    exact .names (by simp) rfl

theorem mapM_cons_ok {α β ε : Type} {f : α → Except ε β} {a : α} {l : List α} {r : List β} :
    (a :: l).mapM f = .ok r ↔ ∃ b bs, f a = .ok b ∧ l.mapM f = .ok bs ∧ r = b :: bs := by
  rw [List.mapM_cons]
  cases hf : f a with
  | error e =>
    simp only [bind, Except.bind]
    constructor
    · intro h; cases h
    · rintro ⟨b, bs, h, _⟩; cases h
  | ok b =>
    cases hl : l.mapM f with
    | error e =>
      simp only [bind, Except.bind]
      constructor
      · intro h; cases h
      · rintro ⟨b, bs, _, h, _⟩; cases h
    | ok bs =>
      simp only [bind, Except.bind, pure, Except.pure]
      constructor
      · intro h; cases h; exact ⟨b, bs, rfl, rfl, rfl⟩
      · rintro ⟨b', bs', h1, h2, rfl⟩; cases h1; cases h2; rfl

theorem shape_name {s : Str} {rest : List Str} {q : Path} (hs : Named s) :
    PathShape split (s :: rest) q ↔
      ∃ np q', split s = .ok np ∧ PathShape split rest q' ∧ q = ⟨np :: q'.navPath, q'.option, q'.linksProperty⟩ := by
  constructor
  · intro h
    generalize hl : s :: rest = ss at h
    cases h with
    | names h1 h2 =>
      subst hl
      obtain ⟨b, bs, e1, e2, rfl⟩ := mapM_cons_ok.mp h2
      exact ⟨b, _, e1, .names (fun x hx => h1 x (by simp [hx])) e2, rfl⟩
    | @option ss nav t o h1 h2 h3 h4 =>
      cases ss with
      | nil => exact absurd (by rw [(List.cons.inj hl).1]; rfl) hs
      | cons a ss =>
        obtain ⟨rfl, rfl⟩ := List.cons.inj hl
        obtain ⟨b, bs, e1, e2, rfl⟩ := mapM_cons_ok.mp h2
        exact ⟨b, _, e1, .option (fun x hx => h1 x (by simp [hx])) e2 h3 h4, rfl⟩
    | @links ss nav t l n k h1 h2 h3 h4 h5 =>
      cases ss with
      | nil => exact absurd (by rw [(List.cons.inj hl).1]; rfl) hs
      | cons a ss =>
        obtain ⟨rfl, rfl⟩ := List.cons.inj hl
        obtain ⟨b, bs, e1, e2, rfl⟩ := mapM_cons_ok.mp h2
        exact ⟨b, _, e1, .links (fun x hx => h1 x (by simp [hx])) e2 h3 h4 h5, rfl⟩
  · rintro ⟨np, q', e, h, rfl⟩
    have hall : ∀ {ss : List Str}, (∀ x ∈ ss, Named x) → ∀ x ∈ s :: ss, Named x := by
      intro ss h x hx
      rcases List.mem_cons.mp hx with rfl | hx
      · exact hs
      · exact h x hx
    cases h with
    | names h1 h2 => exact .names (hall h1) (mapM_cons_ok.mpr ⟨_, _, e, h2, rfl⟩)
    | option h1 h2 h3 h4 =>
      exact PathShape.option (ss := s :: _) (hall h1) (mapM_cons_ok.mpr ⟨_, _, e, h2, rfl⟩) h3 h4
    | links h1 h2 h3 h4 h5 =>
      exact PathShape.links (ss := s :: _) (hall h1) (mapM_cons_ok.mpr ⟨_, _, e, h2, rfl⟩) h3 h4 h5

theorem shape_dollar {t : Str} {rest : List Str} {q : Path} :
    PathShape split (('$' :: t) :: rest) q ↔
      (∃ o, o ≠ .links ∧ Py.lower t = (pathWord o).toList ∧ rest = [] ∧ q = ⟨[], some o, none⟩) ∨
      (Py.lower t = "links".toList ∧ ∃ l n k, rest = [l] ∧ Named l ∧ split l = .ok (n, k) ∧ q = ⟨[(n, k)], some .links, some n⟩) := by
  constructor
  · intro h
    generalize hl : ('$' :: t) :: rest = ss at h
    cases h with
    | names h1 h2 =>
      subst hl
      exact absurd rfl (h1 ('$' :: t) (by simp))
    | @option ss nav u o h1 h2 h3 h4 =>
      cases ss with
      | nil =>
        obtain ⟨e1, rfl⟩ := List.cons.inj hl
        cases e1
        cases h2
        exact .inl ⟨o, h4, h3, rfl, rfl⟩
      | cons a ss =>
        obtain ⟨rfl, _⟩ := List.cons.inj hl
        exact absurd rfl (h1 ('$' :: t) (by simp))
    | @links ss nav u l n k h1 h2 h3 h4 h5 =>
      cases ss with
      | nil =>
        obtain ⟨e1, rfl⟩ := List.cons.inj hl
        cases e1
        cases h2
        exact .inr ⟨h3, l, n, k, rfl, h4, h5, rfl⟩
      | cons a ss =>
        obtain ⟨rfl, _⟩ := List.cons.inj hl
        exact absurd rfl (h1 ('$' :: t) (by simp))
  · rintro (⟨o, h1, h2, rfl, rfl⟩ | ⟨h1, l, n, k, rfl, h2, h3, rfl⟩)
    · exact PathShape.option (ss := []) (by simp) rfl h2 h1
    · exact PathShape.links (ss := []) (nav := []) (by simp) rfl h1 h2 h3

theorem dollar_of {s : Str} (h : ¬ Named s) : ∃ t, s = '$' :: t := by
  cases s with
  | nil => exact absurd (by simp [Named]) h
  | cons c s =>
    refine ⟨s, ?_⟩
    have : ¬ (some c ≠ some '$') := h
    rw [Decidable.not_not] at this
    rw [Option.some.inj this]

/-! ## Steps -/

theorem step_name {U : UriTables} {p : Path} {s : Str} (ho : p.option = none) (hs : Named s) :
    pathStep U p s = (splitSegment U s).map fun np => { p with navPath := p.navPath ++ [np] } := by
  unfold pathStep
  rw [ho, if_neg (by simp), if_neg hs, if_neg (by simp)]

theorem step_dollar {U : UriTables} {p : Path} {t : Str} (ho : p.option = none) :
    pathStep U p ('$' :: t) = match PathOpt.decode t with
      | none => .error .valueError
      | some o => .ok { p with option := some o } := by
  unfold pathStep
  rw [ho, if_neg (by simp), if_pos (show ('$' :: t).head? = some '$' from rfl), List.tail_cons]
  cases PathOpt.decode t <;> simp

theorem step_links {U : UriTables} {p : Path} {s : Str} (ho : p.option = some .links) (hl : p.linksProperty = none) :
    pathStep U p s = if s.head? = some '$' then .error .pathOption
      else (splitSegment U s).map fun np => { p with navPath := p.navPath ++ [np], linksProperty := some np.1 } := by
  unfold pathStep
  rw [if_pos ho, hl, if_neg (by simp)]

theorem step_linked {U : UriTables} {p : Path} {s : Str} (ho : p.option = some .links) (hl : p.linksProperty.isSome = true) :
    pathStep U p s = .error .pathOption := by
  unfold pathStep
  rw [if_pos ho, if_pos hl]

theorem step_after {U : UriTables} {p : Path} {s : Str} {o : PathOpt} (ho : p.option = some o) (hl : o ≠ .links) :
    pathStep U p s = .error .pathOption ∨ (s.head? = some '$' ∧ PathOpt.decode s.tail = none ∧ pathStep U p s = .error .valueError) := by
  unfold pathStep
  rw [ho, if_neg (by simpa using hl)]
  by_cases hs : s.head? = some '$'
  · rw [if_pos hs]
    cases hd : PathOpt.decode s.tail with
    | none => exact .inr ⟨hs, rfl, rfl⟩
    | some o => exact .inl (by simp)
  · rw [if_neg hs]
    exact .inl (by simp)

/-- The loop over the segments with the test after it. -/
def walk (U : UriTables) (p : Path) (ss : List Str) : Except UriFault Path :=
  (ss.foldlM (pathStep U) p).bind fun p =>
    if p.option = some .links ∧ p.linksProperty = none then .error .pathOption else .ok p

theorem walk_nil (U : UriTables) (p : Path) :
    walk U p [] = if p.option = some .links ∧ p.linksProperty = none then .error .pathOption else .ok p := rfl

theorem walk_cons (U : UriTables) (p : Path) (s : Str) (ss : List Str) : walk U p (s :: ss) = (pathStep U p s).bind fun p => walk U p ss := by
  unfold walk
  rw [List.foldlM_cons]
  cases pathStep U p s <;> rfl

theorem walk_after {U : UriTables} {p : Path} {o : PathOpt} (ho : p.option = some o) (hl : o ≠ .links) {ss : List Str} {r : Path} :
    walk U p ss = .ok r ↔ ss = [] ∧ r = p := by
  cases ss with
  | nil =>
    rw [walk_nil, if_neg (by rw [ho]; rintro ⟨h, _⟩; exact hl (Option.some.inj h))]
    constructor
    · intro h; cases h; exact ⟨rfl, rfl⟩
    · rintro ⟨_, rfl⟩; rfl
  | cons s ss =>
    rw [walk_cons]
    rcases step_after (U := U) (s := s) ho hl with h | ⟨_, _, h⟩ <;> rw [h] <;>
      exact ⟨fun h => (by cases h), fun h => absurd h.1 (by simp)⟩

theorem walk_linked {U : UriTables} {p : Path} (ho : p.option = some .links) (hl : p.linksProperty.isSome = true) {ss : List Str} {r : Path} :
    walk U p ss = .ok r ↔ ss = [] ∧ r = p := by
  cases ss with
  | nil =>
    rw [walk_nil, if_neg (by rintro ⟨_, h⟩; rw [h] at hl; cases hl)]
    constructor
    · intro h; cases h; exact ⟨rfl, rfl⟩
    · rintro ⟨_, rfl⟩; rfl
  | cons s ss =>
    rw [walk_cons, step_linked ho hl]
    exact ⟨fun h => (by cases h), fun h => absurd h.1 (by simp)⟩

theorem walk_links {U : UriTables} {p : Path} (ho : p.option = some .links) (hl : p.linksProperty = none) {ss : List Str} {r : Path} :
    walk U p ss = .ok r ↔ ∃ l n k, ss = [l] ∧ Named l ∧ splitSegment U l = .ok (n, k) ∧
      r = { p with navPath := p.navPath ++ [(n, k)], linksProperty := some n } := by
  cases ss with
  | nil =>
    rw [walk_nil, if_pos ⟨ho, hl⟩]
    exact ⟨fun h => (by cases h), fun ⟨_, _, _, h, _⟩ => absurd h (by simp)⟩
  | cons s ss =>
    rw [walk_cons, step_links ho hl]
    by_cases hs : s.head? = some '$'
    · rw [if_pos hs]
      exact ⟨fun h => (by cases h), fun ⟨_, _, _, h, hn, _⟩ => absurd hs (by cases h; exact hn)⟩
    · rw [if_neg hs]
      cases he : splitSegment U s with
      | error e => exact ⟨fun h => (by cases h), fun ⟨_, _, _, h, _, h', _⟩ => (by cases h; rw [he] at h'; cases h')⟩
      | ok np =>
        obtain ⟨n, k⟩ := np
        show walk U _ ss = _ ↔ _
        rw [walk_linked (by exact ho) (by rfl)]
        constructor
        · rintro ⟨rfl, rfl⟩; exact ⟨s, n, k, rfl, hs, he, rfl⟩
        · rintro ⟨l, n', k', h, _, h', rfl⟩
          obtain ⟨rfl, rfl⟩ := List.cons.inj h
          rw [he] at h'
          cases h'
          exact ⟨rfl, rfl⟩

theorem walk_shape (U : UriTables) : ∀ (ss : List Str) (nav : List (Str × Keys)) (r : Path), (∀ s ∈ ss, UriChars s) →
    (walk U ⟨nav, none, none⟩ ss = .ok r ↔
      ∃ q, PathShape (splitSegment U) ss q ∧ r = ⟨nav ++ q.navPath, q.option, q.linksProperty⟩)
  | [], nav, r, _ => by
    rw [walk_nil, if_neg (by simp)]
    constructor
    · intro h; cases h; exact ⟨_, shape_nil.mpr rfl, by simp⟩
    · rintro ⟨q, h, rfl⟩; rw [shape_nil.mp h]; simp
  | s :: ss, nav, r, hu => by
    have ih := walk_shape U ss
    have hu' : ∀ x ∈ ss, UriChars x := fun x hx => hu x (by simp [hx])
    rw [walk_cons]
    by_cases hs : Named s
    · rw [step_name rfl hs]
      cases he : splitSegment U s with
      | error e =>
        constructor
        · intro h; cases h
        · rintro ⟨q, h, _⟩
          obtain ⟨_, _, h, _⟩ := (shape_name hs).mp h
          rw [he] at h; cases h
      | ok np =>
        show walk U ⟨nav ++ [np], none, none⟩ ss = _ ↔ _
        rw [ih _ r hu']
        constructor
        · rintro ⟨q, h, rfl⟩
          exact ⟨_, (shape_name hs).mpr ⟨np, q, he, h, rfl⟩, by simp⟩
        · rintro ⟨q, h, rfl⟩
          obtain ⟨np', q', h1, h2, rfl⟩ := (shape_name hs).mp h
          rw [he] at h1; cases h1
          exact ⟨q', h2, by simp⟩
    · obtain ⟨t, rfl⟩ := dollar_of hs
      have ht : UriChars t := uriChars_cons (hu ('$' :: t) (by simp))
      rw [step_dollar rfl]
      have hd := pathOpt_decode ht
      cases ho : PathOpt.decode t with
      | none =>
        constructor
        · intro h; cases h
        · rintro ⟨q, h, _⟩
          rcases shape_dollar.mp h with ⟨o, _, h, _⟩ | ⟨h, _⟩
          · rw [(hd o).mpr h] at ho; cases ho
          · rw [(hd .links).mpr h] at ho; cases ho
      | some o =>
        have hw : Py.lower t = (pathWord o).toList := (hd o).mp ho
        have huniq : ∀ o', Py.lower t = (pathWord o').toList → o' = o := by
          intro o' h
          have := (hd o').mpr h
          rw [ho] at this
          exact (Option.some.inj this).symm
        show walk U ⟨nav, some o, none⟩ ss = _ ↔ _
        by_cases hl : o = .links
        · subst hl
          rw [walk_links rfl rfl]
          constructor
          · rintro ⟨l, n, k, rfl, h1, h2, rfl⟩
            exact ⟨_, shape_dollar.mpr (.inr ⟨hw, l, n, k, rfl, h1, h2, rfl⟩), rfl⟩
          · rintro ⟨q, h, rfl⟩
            rcases shape_dollar.mp h with ⟨o', h1, h2, _⟩ | ⟨_, l, n, k, h1, h2, h3, rfl⟩
            · exact absurd (huniq o' h2) h1
            · exact ⟨l, n, k, h1, h2, h3, rfl⟩
        · rw [walk_after rfl hl]
          constructor
          · rintro ⟨rfl, rfl⟩
            exact ⟨_, shape_dollar.mpr (.inl ⟨o, hl, hw, rfl, rfl⟩), by simp⟩
          · rintro ⟨q, h, rfl⟩
            rcases shape_dollar.mp h with ⟨o', h1, h2, h3, rfl⟩ | ⟨h1, _⟩
            · rw [huniq o' h2]; exact ⟨h3, by rw [List.append_nil]⟩
            · exact absurd (huniq .links h1).symm hl

/-! ## Splitting -/

theorem split_join_parts {sep : Char} : ∀ {ps : List Str}, ps ≠ [] → (∀ p ∈ ps, sep ∉ p) → Py.split sep (Py.join sep ps) = ps
  | [], h, _ => absurd rfl h
  | [p], _, h => CP.split_of_not_mem sep p (h p (by simp))
  | p :: q :: ps, _, h => by
    show Py.split sep (p ++ sep :: Py.join sep (q :: ps)) = _
    rw [CP.split_append, CP.split_of_not_mem sep p (h p (by simp)), split_join_parts (by simp) (fun r hr => h r (by simp [hr]))]
    rfl

theorem split_slash {ss : List Str} (h0 : ss ≠ []) (h : ∀ s ∈ ss, '/' ∉ s) : (Py.split '/' ('/' :: Py.join '/' ss)).drop 1 = ss := by
  have : '/' :: Py.join '/' ss = [] ++ '/' :: Py.join '/' ss := rfl
  rw [this, CP.split_append, split_join_parts h0 h]
  rfl

theorem readPath_walk {U : UriTables} {ss : List Str} (h0 : ss ≠ []) (h1 : ss ≠ [[]]) (h : ∀ s ∈ ss, '/' ∉ s) :
    readPath U ('/' :: Py.join '/' ss) = walk U ⟨[], none, none⟩ ss := by
  unfold readPath walk
  rw [split_slash h0 h, if_neg]
  intro e
  have e : Py.join '/' ss = [] := (List.cons.inj e).2
  have := split_join_parts h0 h
  rw [e] at this
  exact h1 this.symm

theorem atEquals_of {n v : Str} (h : '=' ∉ n) : atEquals (n ++ '=' :: v) = some (n, v) := by
  have hd : (n ++ '=' :: v).dropWhile (· != '=') = '=' :: v ∧ (n ++ '=' :: v).takeWhile (· != '=') = n := by
    induction n with
    | nil => exact ⟨rfl, rfl⟩
    | cons c n ih =>
      have hc : (c != '=') = true := by
        rw [bne_iff_ne]; rintro rfl; exact h (by simp)
      obtain ⟨i1, i2⟩ := ih (fun hm => h (by simp [hm]))
      exact ⟨by rw [List.cons_append, List.dropWhile_cons, if_pos hc]; exact i1,
        by rw [List.cons_append, List.takeWhile_cons, if_pos hc, i2]⟩
  unfold atEquals
  rw [hd.1, hd.2]

/-! ## Text -/

theorem utf8_spec (t : Str) : utf8 t = utf8Encode t := by
  unfold utf8 utf8Encode
  congr 1
  funext c
  split
  · next h =>
    unfold String.utf8EncodeChar
    have hv : c.val.toNat = c.toNat := rfl
    simp only [hv]
    rw [if_pos (by omega)]
    simp only [List.map_cons, List.map_nil, UInt8.toNat_ofNat']
    rw [Nat.mod_eq_of_lt (by omega), Char.ofNat_toNat]
  · next h => rw [Props.utf8_bytes_eq c (by omega), List.map_map]; rfl

theorem decodeText_stands {s t : Str} (h : Stands s t) : decodeText s = .ok t := by
  unfold decodeText
  rw [Props.uri_unescape_partial s h.1, h.2, utf8_spec, utf8_decode_encode]

theorem decodeText_escape (r : Char → Bool) (t : Str) : decodeText (Uri.escapeData r (utf8Encode t)) = .ok t := by
  unfold decodeText
  rw [Props.uri_escape_unescape r _ (utf8_octets t), utf8_decode_encode]

/-! ## Segments -/

theorem takeDrop_sep {p : Char → Bool} {n v : Str} {c : Char} (h : ∀ x ∈ n, p x = true) (hc : p c = false) :
    (n ++ c :: v).takeWhile p = n ∧ (n ++ c :: v).dropWhile p = c :: v := by
  induction n with
  | nil =>
    exact ⟨by rw [List.nil_append, List.takeWhile_cons, if_neg (by rw [hc]; simp)],
      by rw [List.nil_append, List.dropWhile_cons, if_neg (by rw [hc]; simp)]⟩
  | cons x n ih =>
    obtain ⟨i1, i2⟩ := ih (fun y hy => h y (by simp [hy]))
    exact ⟨by rw [List.cons_append, List.takeWhile_cons, if_pos (h x (by simp)), i1],
      by rw [List.cons_append, List.dropWhile_cons, if_pos (h x (by simp)), i2]⟩

theorem named_append {n v : Str} {c : Char} (hn : Named n) (hc : c ≠ '$') : Named (n ++ c :: v) := by
  cases n with
  | nil => intro h; exact hc (Option.some.inj h)
  | cons x n => exact hn

/-- A segment with brackets. -/
theorem segment_brackets {U : UriTables} {n t body : Str} (hn : Named n) (hp : '(' ∉ n) (ht : decodeText n = .ok t) :
    splitSegment U (n ++ '(' :: (body ++ [')'])) =
      if body = [] then .ok (t, some [])
      else match Py.split ',' body with
        | [k] =>
          if '=' ∈ k then (namedKeys U [] k).map fun d => (t, some d)
          else (keyLiteral U k).map fun v => (t, some [([], v)])
        | ks => (ks.foldlM (namedKeys U) []).map fun d => (t, some d) := by
  have hw := takeDrop_sep (p := (· != '(')) (n := n) (v := body ++ [')']) (c := '(')
    (fun x hx => by rw [bne_iff_ne]; rintro rfl; exact hp hx) (by simp)
  have hlast : (n ++ '(' :: (body ++ [')'])).getLast? = some ')' := by
    rw [show n ++ '(' :: (body ++ [')']) = (n ++ '(' :: body) ++ [')'] by simp, List.getLast?_append]
    rfl
  unfold splitSegment
  rw [if_neg (named_append hn (by decide)), if_pos ⟨by simp, hlast⟩, hw.1, hw.2, ht, List.drop_one, List.tail_cons, List.dropLast_concat]
  rfl

theorem namedKeys_of {U : UriTables} {d : List (Str × Lit)} {n v name : Str} {lit : Lit} (h1 : '=' ∉ n) (h2 : '=' ∉ v)
    (h3 : decodeText n = .ok name) (h4 : keyLiteral U v = .ok lit) :
    namedKeys U d (n ++ '=' :: v) = .ok (Dict.set d name lit) := by
  unfold namedKeys
  rw [CP.split_append, CP.split_of_not_mem _ _ h1, CP.split_of_not_mem _ _ h2]
  show (decodeText n).bind _ = _
  rw [h3]
  show (keyLiteral U v).bind _ = _
  rw [h4]
  rfl

theorem foldlM_ok {α β ε : Type} {f : β → α → Except ε β} {g : β → α → β} : ∀ {l : List α} {b : β},
    (∀ a ∈ l, ∀ b, f b a = .ok (g b a)) → l.foldlM f b = .ok (l.foldl g b)
  | [], b, _ => rfl
  | a :: l, b, h => by
    rw [List.foldlM_cons, h a (by simp) b]
    exact foldlM_ok (fun x hx => h x (by simp [hx]))

theorem get_foldl_set {α κ β : Type} [DecidableEq κ] {key : α → κ} {val : α → β} : ∀ {l : List α} {d : List (κ × β)},
    (l.map key).Nodup →
    (∀ a ∈ l, Dict.get (l.foldl (fun d a => Dict.set d (key a) (val a)) d) (key a) = some (val a)) ∧
      ∀ k, k ∉ l.map key → Dict.get (l.foldl (fun d a => Dict.set d (key a) (val a)) d) k = Dict.get d k
  | [], d, _ => ⟨fun a h => (by cases h), fun k _ => rfl⟩
  | x :: l, d, h => by
    rw [List.map_cons, List.nodup_cons] at h
    obtain ⟨i1, i2⟩ := get_foldl_set (val := val) (d := Dict.set d (key x) (val x)) h.2
    refine ⟨fun a ha => ?_, fun k hk => ?_⟩
    · rcases List.mem_cons.mp ha with rfl | ha
      · rw [List.foldl_cons, i2 _ h.1, Dict.get_set, if_pos rfl]
      · exact i1 a ha
    · rw [List.map_cons, List.mem_cons, not_or] at hk
      rw [List.foldl_cons, i2 k hk.2, Dict.get_set, if_neg hk.1]

/-! ## Queries -/

theorem sysOpt_decode (o : SysOpt) : SysOpt.decode (sysWord o).toList = some o := by
  cases o <;> decide +kernel

theorem sysWord_name (o : SysOpt) : o.name = (sysWord o).toList := by cases o <;> rfl

theorem systemOption_word {U : UriTables} {o : SysOpt} {v : Str} :
    systemOption U (sysWord o).toList v = guarded ((optionValue U o v).map fun x => (o, x)) := by
  unfold systemOption
  rw [sysOpt_decode]

theorem queryPart_sys {U : UriTables} {q : Query} {n v value : Str} {o : SysOpt} (h1 : '=' ∉ n)
    (h2 : decodeText n = .ok (sysWord o).toList) (h3 : decodeText v = .ok value) :
    queryPart U q ('$' :: (n ++ '=' :: v)) =
      (guarded ((optionValue U o value).map fun x => (o, x))).bind fun pv => .ok { q with sys := Dict.set q.sys pv.1 pv.2 } := by
  simp only [queryPart, atEquals_of h1]
  show (decodeText n).bind _ = _
  rw [h2]
  show (decodeText v).bind _ = _
  rw [h3]
  show (systemOption U (sysWord o).toList value).bind _ = _
  rw [systemOption_word]

theorem foldl_sys {α : Type} {key : α → SysOpt} {val : α → OptValue} : ∀ {l : List α} {q : Query},
    l.foldl (fun (q : Query) a => { q with sys := Dict.set q.sys (key a) (val a) }) q =
      { q with sys := l.foldl (fun d a => Dict.set d (key a) (val a)) q.sys }
  | [], q => rfl
  | a :: l, q => by rw [List.foldl_cons, foldl_sys]; rfl

end Verif.OData
