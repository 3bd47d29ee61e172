import Verif.Model.HttpAuth
import Verif.Spec.HttpAuth
import Verif.Lemmas.XmlUtils

/-!
# Servers, paths and challenges
-/

namespace Verif.Http.Auth

open Verif Verif.Http Verif.Spec.HttpAuth

/-! ### Hosts and ports -/

/-- The parts of a server: hosts have no colons, and no at signs unless there is user information. -/
theorem serverLoop_good (s : Str) : ∀ (m : Uri.SMode) (all acc : Str) (u h : Option Str),
    (m = .start → u = none ∧ ':' ∉ all ∧ '@' ∉ all) →
    (m = .host → u.isSome = true ∧ ':' ∉ acc) →
    (m = .port → (∀ x, h = some x → ':' ∉ x ∧ (u = none → '@' ∉ x))) →
    (∀ x, (Uri.serverLoop m all acc u h s).2.1 = some x → ':' ∉ x ∧ ((Uri.serverLoop m all acc u h s).1 = none → '@' ∉ x)) := by
  induction s with
  | nil =>
    intro m all acc u h h1 h2 h3
    cases m with
    | start =>
      intro x hx
      injection hx with hx; subst hx
      exact ⟨(h1 rfl).2.1, fun _ => (h1 rfl).2.2⟩
    | host =>
      intro x hx
      injection hx with hx; subst hx
      refine ⟨(h2 rfl).2, fun e => ?_⟩
      have e' : u = none := e
      have := (h2 rfl).1
      rw [e'] at this
      cases this
    | port =>
      exact h3 rfl
    | user =>
      intro x hx
      injection hx with hx; subst hx
      exact ⟨by simp, fun _ => by simp⟩
  | cons c t ih =>
    intro m all acc u h h1 h2 h3
    have hcolon : ':'.toNat = 0x3A := rfl
    have hat : '@'.toNat = 0x40 := rfl
    cases m with
    | start =>
      rw [Uri.serverLoop]
      split
      · exact ih .host _ _ _ _ (fun e => nomatch e) (fun _ => ⟨rfl, by simp⟩) (fun e => nomatch e)
      · rename_i ha
        split
        · refine ih .port _ _ _ _ (fun e => nomatch e) (fun e => nomatch e) (fun _ x hx => ?_)
          injection hx with hx; subst hx
          exact ⟨(h1 rfl).2.1, fun _ => (h1 rfl).2.2⟩
        · rename_i hc
          refine ih .start _ _ _ _ (fun _ => ⟨(h1 rfl).1, ?_, ?_⟩) (fun e => nomatch e) (fun e => nomatch e)
          · rw [List.mem_append]
            rintro (e | e)
            · exact (h1 rfl).2.1 e
            · rw [List.mem_singleton] at e; subst e; exact hc hcolon
          · rw [List.mem_append]
            rintro (e | e)
            · exact (h1 rfl).2.2 e
            · rw [List.mem_singleton] at e; subst e; exact ha hat
    | host =>
      rw [Uri.serverLoop]
      split
      · refine ih .port _ _ _ _ (fun e => nomatch e) (fun e => nomatch e) (fun _ x hx => ?_)
        injection hx with hx; subst hx
        refine ⟨(h2 rfl).2, fun e => ?_⟩
        have := (h2 rfl).1
        rw [e] at this
        cases this
      · rename_i hc
        refine ih .host _ _ _ _ (fun e => nomatch e) (fun _ => ⟨(h2 rfl).1, ?_⟩) (fun e => nomatch e)
        rw [List.mem_append]
        rintro (e | e)
        · exact (h2 rfl).2 e
        · rw [List.mem_singleton] at e; subst e; exact hc hcolon
    | port =>
      rw [Uri.serverLoop]
      split
      · exact ih .host _ _ _ _ (fun e => nomatch e) (fun _ => ⟨rfl, by simp⟩) (fun e => nomatch e)
      · split
        · split
          · exact ih .user _ _ _ _ (fun e => nomatch e) (fun e => nomatch e) (fun e => nomatch e)
          · exact h3 rfl
        · exact ih .port _ _ _ _ (fun e => nomatch e) (fun e => nomatch e) (fun _ => h3 rfl)
    | user =>
      rw [Uri.serverLoop]
      split
      · exact ih .host _ _ _ _ (fun e => nomatch e) (fun _ => ⟨rfl, by simp⟩) (fun e => nomatch e)
      · exact ih .user _ _ _ _ (fun e => nomatch e) (fun e => nomatch e) (fun e => nomatch e)

theorem splitServer_good (a : Option Str) :
    (∀ x, (Uri.splitServer a).2.1 = some x → ':' ∉ x ∧ ((Uri.splitServer a).1 = none → '@' ∉ x)) := by
  cases a with
  | none => intro x hx; cases hx
  | some s =>
    unfold Uri.splitServer
    simp only
    split
    · exact serverLoop_good s .start [] [] none none (fun _ => ⟨rfl, by simp, by simp⟩) (fun e => nomatch e) (fun e => nomatch e)
    · intro x hx
      injection hx with hx; subst hx
      exact ⟨by simp, fun _ => by simp⟩

theorem lower_mem {d : Char} (hd : ∀ c, Py.lowerChar c = d → c = d) {s : Str} (h : d ∉ s) : d ∉ Py.lower s := by
  unfold Py.lower
  rw [List.mem_map]
  rintro ⟨c, hc, e⟩
  rw [hd c e] at hc
  exact h hc

theorem lowerChar_back {d : Char} (h : ¬ (97 ≤ d.toNat ∧ d.toNat ≤ 122)) : ∀ c, Py.lowerChar c = d → c = d := by
  intro c hc
  unfold Py.lowerChar at hc
  split at hc
  · rename_i hu
    subst hc
    exfalso
    have hu' : 65 ≤ c.toNat ∧ c.toNat ≤ 90 := by simpa using hu
    apply h
    have : (Char.ofNat (c.toNat + 32)).toNat = c.toNat + 32 := by
      rw [Char.ofNat, dif_pos (by exact Or.inl (by omega))]
      rfl
    rw [this]
    omega
  · exact hc

/-- The root of the URL of a request names the server it goes to. -/
theorem setRequestURI_names {r r' : Request} {text : Str} (h : setRequestURI r text = .ok r') :
    Names (canonicalRoot r'.uri) r'.https (Py.lower r'.hostname) r'.port := by
  unfold setRequestURI at h
  split at h
  · cases h
  · rename_i u hu
    split at h
    · cases h
    · rename_i hk
      split at h
      · cases h
      · rename_i hui
        split at h
        · cases h
        · rename_i hf
          simp only at h
          split at h
          · rename_i hh
            injection h with h
            subst h
            simp only
            have hgood := splitServer_good u.parts.authority
            cases hx : hostOf u with
            | none => rw [hx] at hh; cases hh
            | some x =>
              have hxne : x ≠ [] := by
                intro e
                subst e
                rw [hx] at hh
                cases hh
              have h1 := hgood x hx
              refine ⟨?_, ?_, ?_⟩
              · intro e
                apply hxne
                exact List.map_eq_nil_iff.mp e
              · exact lower_mem (lowerChar_back (by decide)) h1.1
              · have hport : portPart u =
                    (if (if Uri.truthy (portOf u) then Py.digitsVal 10 ((portOf u).getD []) else
                        defaultPort (kind u == .https)) = (if (kind u == .https) = true then 443 else 80) then []
                      else ':' :: Py.strNat (if Uri.truthy (portOf u) then Py.digitsVal 10 ((portOf u).getD []) else
                        defaultPort (kind u == .https))) := by
                  have hdp : defaultPort (kind u == .https) = (if (kind u == .https) = true then 443 else 80) := rfl
                  unfold portPart
                  cases hp : portOf u with
                  | none => simp [Uri.truthy, hdp]
                  | some p =>
                    cases p with
                    | nil => simp [Uri.truthy, hdp]
                    | cons a b => simp [Uri.truthy, hdp]
                unfold canonicalRoot serverText
                rw [hport, hx]
                cases hi : userinfoOf u with
                | none =>
                  refine .inl ⟨lower_mem (lowerChar_back (by decide)) (h1.2 hi), ?_⟩
                  unfold userPart
                  rw [hi]
                  rfl
                | some i =>
                  cases i with
                  | cons a b => rw [hi] at hui; exact absurd rfl hui
                  | nil =>
                    refine .inr ?_
                    unfold userPart
                    rw [hi]
                    rfl
          · cases h

/-- A text names one server. -/
theorem append_colon {a b x y : Str} (ha : ':' ∉ a) (hb : ':' ∉ b) (hx : x = [] ∨ ∃ t, x = ':' :: t)
    (hy : y = [] ∨ ∃ t, y = ':' :: t) (h : a ++ x = b ++ y) : a = b ∧ x = y := by
  induction a generalizing b with
  | nil =>
    cases b with
    | nil => exact ⟨rfl, h⟩
    | cons d b =>
      rcases hx with rfl | ⟨t, rfl⟩
      · cases h
      · injection h with h1 _
        subst h1
        exact absurd (List.mem_cons_self ..) hb
  | cons c a ih =>
    cases b with
    | nil =>
      rcases hy with rfl | ⟨t, rfl⟩
      · cases h
      · injection h with h1 _
        subst h1
        exact absurd (List.mem_cons_self ..) ha
    | cons d b =>
      injection h with h1 h2
      obtain ⟨e1, e2⟩ := ih (fun e => ha (List.mem_cons_of_mem _ e)) (fun e => hb (List.mem_cons_of_mem _ e)) h2
      exact ⟨by rw [h1, e1], e2⟩

theorem serverText_inj {https : Bool} {h1 h2 : Str} {p1 p2 : Nat} (n1 : ':' ∉ h1) (n2 : ':' ∉ h2)
    (h : serverText https h1 p1 = serverText https h2 p2) : h1 = h2 ∧ p1 = p2 := by
  unfold serverText at h
  generalize (if https then 443 else 80 : Nat) = d at h
  obtain ⟨e1, e2⟩ := append_colon n1 n2 (by split; exact .inl rfl; exact .inr ⟨_, rfl⟩)
    (by split; exact .inl rfl; exact .inr ⟨_, rfl⟩) h
  refine ⟨e1, ?_⟩
  split at e2
  · rename_i a
    split at e2
    · rename_i b; rw [a, b]
    · cases e2
  · split at e2
    · cases e2
    · injection e2 with _ e3
      rw [← XmlUtils.strNat_val p1, e3, XmlUtils.strNat_val]

theorem names_head {t : Str} {s : Bool} {h : Str} {p : Nat} (n : Names t s h p) :
    ∃ x, t = (if s then "https://".toList else "http://".toList) ++ x ∧
      ((x = serverText s h p ∧ x.head? ≠ some '@') ∨ x = '@' :: serverText s h p) := by
  obtain ⟨hne, _, h1 | h1⟩ := n
  · refine ⟨_, h1.2, .inl ⟨rfl, ?_⟩⟩
    unfold serverText
    cases h with
    | nil => exact absurd rfl hne
    | cons a b =>
      intro e
      injection e with e
      subst e
      exact h1.1 (List.mem_cons_self ..)
  · exact ⟨_, h1, .inr rfl⟩

theorem names_unique {t : Str} {s1 s2 : Bool} {h1 h2 : Str} {p1 p2 : Nat} (a : Names t s1 h1 p1) (b : Names t s2 h2 p2) :
    s1 = s2 ∧ h1 = h2 ∧ p1 = p2 := by
  obtain ⟨x, ex, hx⟩ := names_head a
  obtain ⟨y, ey, hy⟩ := names_head b
  have hs : s1 = s2 := by
    rw [ex] at ey
    cases s1 <;> cases s2
    · rfl
    · have : ∀ x y : Str, "http://".toList ++ x ≠ "https://".toList ++ y := by
        intro x y e
        have h1 : ("http://".toList ++ x)[4]? = some ':' := rfl
        have h2 : ("https://".toList ++ y)[4]? = some 's' := rfl
        rw [e, h2] at h1
        cases h1
      exact absurd ey (this x y)
    · have : ∀ x y : Str, "https://".toList ++ x ≠ "http://".toList ++ y := by
        intro x y e
        have h1 : ("https://".toList ++ x)[4]? = some 's' := rfl
        have h2 : ("http://".toList ++ y)[4]? = some ':' := rfl
        rw [e, h2] at h1
        cases h1
      exact absurd ey (this x y)
    · rfl
  subst hs
  refine ⟨rfl, ?_⟩
  rw [ex] at ey
  have exy : x = y := List.append_cancel_left ey
  subst exy
  rcases hx with ⟨hx, hx'⟩ | hx <;> rcases hy with ⟨hy, hy'⟩ | hy
  · exact serverText_inj a.2.1 b.2.1 (hx.symm.trans hy)
  · rw [hy] at hx'; exact absurd rfl hx'
  · rw [hx] at hy'; exact absurd rfl hy'
  · rw [hx] at hy
    injection hy with _ hy
    exact serverText_inj a.2.1 b.2.1 hy

/-! ### Paths -/

theorem isPrefix_iff (p q : List Str) : isPrefix p q = true ↔ Covers p q := by
  induction p generalizing q with
  | nil => exact ⟨fun _ => ⟨Nat.zero_le _, fun i h => absurd h (Nat.not_lt_zero i)⟩, fun _ => by rw [isPrefix.eq_def]⟩
  | cons a p ih =>
    cases q with
    | nil => exact ⟨(fun h => nomatch h), fun h => absurd h.1 (by simp)⟩
    | cons b q =>
      rw [isPrefix, Bool.and_eq_true, ih, Bool.or_eq_true, List.isEmpty_iff, beq_iff_eq]
      constructor
      · rintro ⟨h1, h2, h3⟩
        refine ⟨by simp only [List.length_cons]; omega, fun i hi hi' => ?_⟩
        cases i with
        | zero => exact h1
        | succ i => exact h3 i (by simpa using hi) (by simpa using hi')
      · rintro ⟨h1, h2⟩
        refine ⟨h2 0 (by simp) (by simp), by simpa using h1, fun i hi hi' => ?_⟩
        exact h2 (i + 1) (by simpa using hi) (by simpa using hi')

theorem covers_trans {a b c : List Str} (h1 : Covers a b) (h2 : Covers b c) : Covers a c := by
  refine ⟨Nat.le_trans h1.1 h2.1, fun i hi hi' => ?_⟩
  have hb : i < b.length := Nat.lt_of_lt_of_le hi h1.1
  rcases h1.2 i hi hb with e | e
  · exact .inl e
  · rcases h2.2 i hb hi' with f | f
    · exact .inl (e.trans f)
    · exact .inr (e.trans f)

/-- The loop leaves what is covered alone, but for what the new path covers. -/
theorem addLoop_covers (new : List Str) (ps : List (List Str)) :
    (∀ p ∈ (addLoop new ps).1, p ∈ ps) ∧
    (∀ p ∈ ps, p ∉ (addLoop new ps).1 → Covers new p) ∧
    ((addLoop new ps).2 = false → ∃ p ∈ (addLoop new ps).1, Covers p new) := by
  induction ps with
  | nil => exact ⟨fun p h => h, (fun p h => nomatch h), (fun h => nomatch h)⟩
  | cons a ps ih =>
    rw [addLoop]
    split
    · rename_i h
      exact ⟨fun p h => h, fun p h1 h2 => absurd h1 h2, fun _ => ⟨a, List.mem_cons_self .., (isPrefix_iff _ _).mp h⟩⟩
    · split
      · rename_i h
        refine ⟨fun p hp => List.mem_cons_of_mem _ (ih.1 p hp), fun p hp hn => ?_, ih.2.2⟩
        rcases List.mem_cons.mp hp with e | e
        · subst e; exact (isPrefix_iff _ _).mp h
        · exact ih.2.1 p e hn
      · refine ⟨fun p hp => ?_, fun p hp hn => ?_, fun hk => ?_⟩
        · rcases List.mem_cons.mp hp with e | e
          · exact List.mem_cons.mpr (.inl e)
          · exact List.mem_cons_of_mem _ (ih.1 p e)
        · rcases List.mem_cons.mp hp with e | e
          · exact absurd (List.mem_cons.mpr (.inl e)) hn
          · exact ih.2.1 p e (fun e' => hn (List.mem_cons_of_mem _ e'))
        · obtain ⟨p, hp, hc⟩ := ih.2.2 hk
          exact ⟨p, List.mem_cons_of_mem _ hp, hc⟩

theorem testPath_iff (c : Credentials) (path : Option Str) :
    c.testPath path = true ↔ ∃ p ∈ c.prefixes, Covers p (segments path) := by
  unfold Credentials.testPath
  rw [List.any_eq_true]
  exact exists_congr fun p => and_congr_right fun _ => isPrefix_iff _ _

theorem add_testPath (c : Credentials) (new path : Option Str) :
    (c.addSuccessPath new).testPath path = true ↔
      (c.testPath path = true ∨ Covers (segments new) (segments path)) := by
  rw [testPath_iff, testPath_iff]
  obtain ⟨h1, h2, h3⟩ := addLoop_covers (segments new) c.prefixes
  unfold Credentials.addSuccessPath
  simp only
  split
  · rename_i hk
    constructor
    · rintro ⟨p, hp, hc⟩
      rcases List.mem_append.mp hp with e | e
      · exact .inl ⟨p, h1 p e, hc⟩
      · rw [List.mem_singleton] at e; subst e; exact .inr hc
    · rintro (⟨p, hp, hc⟩ | hc)
      · by_cases hm : p ∈ (addLoop (segments new) c.prefixes).1
        · exact ⟨p, List.mem_append.mpr (.inl hm), hc⟩
        · exact ⟨_, List.mem_append.mpr (.inr (List.mem_singleton.mpr rfl)), covers_trans (h2 p hp hm) hc⟩
      · exact ⟨_, List.mem_append.mpr (.inr (List.mem_singleton.mpr rfl)), hc⟩
  · rename_i hk
    obtain ⟨w, hw, hcw⟩ := h3 (Bool.not_eq_true _ ▸ hk)
    constructor
    · rintro ⟨p, hp, hc⟩
      exact .inl ⟨p, h1 p hp, hc⟩
    · rintro (⟨p, hp, hc⟩ | hc)
      · by_cases hm : p ∈ (addLoop (segments new) c.prefixes).1
        · exact ⟨p, hm, hc⟩
        · exact ⟨w, hw, covers_trans hcw (covers_trans (h2 p hp hm) hc)⟩
      · exact ⟨w, hw, covers_trans hcw hc⟩

theorem covers_below {p q : List Str} (hp : Plain p) : Covers p q ↔ Below p q := by
  induction p generalizing q with
  | nil => exact ⟨fun _ => .inl ⟨q, rfl⟩, fun _ => ⟨Nat.zero_le _, fun i h => absurd h (Nat.not_lt_zero i)⟩⟩
  | cons a p ih =>
    rw [← isPrefix_iff]
    cases q with
    | nil =>
      refine ⟨(fun h => nomatch h), ?_⟩
      rintro (⟨r, h⟩ | ⟨d, x, r, h1, h2⟩)
      · cases h
      · cases d <;> cases h2
    | cons b q =>
      rw [isPrefix, Bool.and_eq_true, isPrefix_iff, Bool.or_eq_true, List.isEmpty_iff, beq_iff_eq]
      cases p with
      | nil =>
        constructor
        · rintro ⟨h | h, _⟩
          · subst h; exact .inr ⟨[], b, q, rfl, rfl⟩
          · subst h; exact .inl ⟨q, rfl⟩
        · rintro (⟨r, h⟩ | ⟨d, x, r, h1, h2⟩)
          · injection h with h _
            exact ⟨.inr h.symm, ⟨Nat.zero_le _, fun i h => absurd h (Nat.not_lt_zero i)⟩⟩
          · refine ⟨.inl ?_, ⟨Nat.zero_le _, fun i h => absurd h (Nat.not_lt_zero i)⟩⟩
            cases d with
            | nil => injection h1
            | cons e d => injection h1 with _ h1; cases d <;> cases h1
      | cons a' p =>
        have ha : a ≠ [] := hp a (by simp [List.dropLast])
        have hp' : Plain (a' :: p) := fun s hs => hp s (by simp [List.dropLast, hs])
        rw [ih hp']
        constructor
        · rintro ⟨h | h, hb⟩
          · exact absurd h ha
          · subst h
            rcases hb with ⟨r, h⟩ | ⟨d, x, r, h1, h2⟩
            · exact .inl ⟨r, by rw [h]; rfl⟩
            · exact .inr ⟨a :: d, x, r, by rw [h1]; rfl, by rw [h2]; rfl⟩
        · rintro (⟨r, h⟩ | ⟨d, x, r, h1, h2⟩)
          · injection h with h1 h2
            exact ⟨.inr h1.symm, .inl ⟨r, h2⟩⟩
          · cases d with
            | nil => cases h1
            | cons e d =>
              injection h1 with e1 h1
              injection h2 with e2 h2
              exact ⟨.inr (e1.trans e2.symm), .inr ⟨d, x, r, h1, h2⟩⟩

end Verif.Http.Auth
