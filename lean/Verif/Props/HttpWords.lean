import Verif.Lemmas.HttpWords

/-!
# Reading HTTP header values: words and quoted strings

C128: reading a header value comes to an end.
C129: quoted text is read back.
-/

set_option linter.unusedVariables false
set_option linter.unusedSimpArgs false

namespace Verif.Props

open Verif Verif.Http

/-! ## C128 -/

/-- The text of a header value: no control characters, other than tabs and the line breaks of folded lines, which are
followed by a space or a tab. -/
inductive TextOnly : Str → Prop where
  | nil : TextOnly []
  | char (c : Char) (t : Str) : (32 ≤ c.toNat ∧ c.toNat ≠ 127) ∨ c = '\t' → TextOnly t → TextOnly (c :: t)
  | fold (c : Char) (t : Str) : c = ' ' ∨ c = '\t' → TextOnly t → TextOnly ('\r' :: '\n' :: c :: t)

/-- The header value is split into words, or rejected, after some number of rounds. -/
def Returns (ignoreSpace : Bool) (s : Str) : Prop := ∃ rounds r, wordLoop ignoreSpace rounds s = some r

theorem textOnly_cr {s : Str} (h : TextOnly ('\r' :: s)) : ∃ c t, s = '\n' :: c :: t ∧ isSp c = true ∧ TextOnly t := by
  cases h with
  | char _ _ hc _ => exact absurd hc (by decide)
  | fold c t hc ht => exact ⟨c, t, rfl, isSp_iff.mpr hc, ht⟩

theorem textOnly_tail {c : Char} {t : Str} (h : TextOnly (c :: t)) (hc : c ≠ '\r') : TextOnly t := by
  cases h with
  | char _ _ _ ht => exact ht
  | fold => exact absurd rfl hc

theorem textOnly_lf {t : Str} : ¬ TextOnly ('\n' :: t) := by
  intro h
  cases h with
  | char _ _ hc _ => exact absurd hc (by decide)

theorem textOnly_dropWhile_sp {s : Str} (h : TextOnly s) : TextOnly (s.dropWhile isSp) := by
  induction s with
  | nil => exact h
  | cons c t ih =>
    rw [List.dropWhile_cons]
    split
    · rename_i hc
      refine ih (textOnly_tail h ?_)
      intro e; subst e; exact absurd hc (by decide)
    · exact h

theorem textOnly_dropWhile_tok {s : Str} (h : TextOnly s) : TextOnly (s.dropWhile isTok) := by
  induction s with
  | nil => exact h
  | cons c t ih =>
    rw [List.dropWhile_cons]
    split
    · rename_i hc
      exact ih (textOnly_tail h (tok_not_sp hc).2.2.2)
    · exact h

theorem textOnly_lws {s w r : Str} (h : TextOnly s) (hl : lws s = some (w, r)) : TextOnly r := by
  cases s with
  | nil => cases hl
  | cons c t =>
    by_cases hc : c = '\r'
    · subst hc
      obtain ⟨d, u, rfl, hd, hu⟩ := textOnly_cr h
      have : lws ('\r' :: '\n' :: d :: u) = some ('\r' :: '\n' :: d :: u.takeWhile isSp, u.dropWhile isSp) := by
        unfold lws crlf
        simp [hd]
      rw [this] at hl
      injection hl with hl
      injection hl with _ hl
      subst hl
      exact textOnly_dropWhile_sp hu
    · cases hs : isSp c with
      | false => rw [lws_none hs hc] at hl; cases hl
      | true =>
        rw [lws_sp hs] at hl
        injection hl with hl
        injection hl with _ hl
        subst hl
        exact textOnly_dropWhile_sp (textOnly_tail h hc)

theorem textOnly_skipLws {s : Str} (h : TextOnly s) : TextOnly (skipLws s).2 := by
  generalize hn : s.length = n
  induction n using Nat.strongRecOn generalizing s with
  | ind n ih =>
    cases hl : lws s with
    | none => rw [skipLws_none hl]; exact h
    | some p =>
      obtain ⟨w, r⟩ := p
      rw [skipLws_some hl]
      exact ih r.length (by have := lws_lt hl; omega) (textOnly_lws h hl) rfl

theorem textOnly_oneText {u : Bool} {s w r : Str} (h : TextOnly s) (ho : oneText u s = some (w, r)) : TextOnly r := by
  unfold oneText at ho
  cases hl : lws s with
  | some p =>
    obtain ⟨w', r'⟩ := p
    rw [hl] at ho
    injection ho with ho
    injection ho with _ ho
    subst ho
    exact textOnly_lws h hl
  | none =>
    rw [hl] at ho
    cases s with
    | nil => cases ho
    | cons c t =>
      simp only at ho
      split at ho
      · rename_i hc
        injection ho with ho
        injection ho with _ ho
        subst ho
        refine textOnly_tail h ?_
        intro e; subst e; exact absurd hc (by decide)
      · cases ho

theorem textOnly_textRun {stop : Str} {u : Bool} {s : Str} (h : TextOnly s) : TextOnly (textRun stop u s).2 := by
  generalize hn : s.length = n
  induction n using Nat.strongRecOn generalizing s with
  | ind n ih =>
    unfold textRun
    split
    · exact h
    · rename_i c t
      simp only
      split
      · exact h
      · split
        · exact h
        · rename_i w r hw
          exact ih r.length (by have := oneText_lt hw; omega) (textOnly_oneText h hw) rfl

theorem textRun_lf (stop : Str) (u : Bool) (t : Str) : textRun stop u ('\n' :: t) = ([], '\n' :: t) := by
  rw [textRun]
  split
  · rfl
  · split
    · rfl
    · rename_i w r hw
      unfold oneText at hw
      rw [lws_none (by decide) (by decide)] at hw
      dsimp only at hw
      rw [if_neg (by decide)] at hw
      cases hw

theorem textOnly_quotedRest {u : Bool} {s w r : Str} (h : TextOnly s) (hq : quotedRest u s = .ok (w, r)) : TextOnly r := by
  generalize hn : s.length = n
  induction n using Nat.strongRecOn generalizing s w r with
  | ind n ih =>
    cases s with
    | nil => rw [quotedRest_nil] at hq; injection hq with hq; injection hq with _ hq; subst hq; exact h
    | cons c t =>
      subst hn
      by_cases h1 : c = '"'
      · subst h1
        rw [quotedRest_quote] at hq; injection hq with hq; injection hq with _ hq; subst hq
        exact textOnly_tail h (by decide)
      · by_cases h2 : c = '\\'
        · subst h2
          cases t with
          | nil => rw [quotedRest_backslash] at hq; cases hq
          | cons d t =>
            rw [quotedRest_pair] at hq
            split at hq
            · obtain ⟨a, ha, he⟩ := map_ok_rest hq
              injection he with h5 h6
              subst h6
              have hd := textOnly_tail h (by decide)
              by_cases hr : d = '\r'
              · subst hr
                obtain ⟨e, v, rfl, _, _⟩ := textOnly_cr hd
                rw [quotedRest_text u _ (by decide) (by decide), if_pos (by rw [textRun_lf])] at ha
                cases ha
              · exact ih t.length (by simp only [List.length_cons]; omega) (textOnly_tail hd hr) ha rfl
            · cases hq
        · rw [quotedRest_text u t h1 h2] at hq
          split at hq
          · cases hq
          · rename_i hne
            have hl := textRun_lt hne
            obtain ⟨a, ha, he⟩ := map_ok_rest hq
            injection he with h5 h6
            subst h6
            exact ih _ hl (textOnly_textRun h) ha rfl

theorem textOnly_commentRest {u : Bool} {d : Nat} {s w r : Str} (h : TextOnly s) (hq : commentRest u d s = .ok (w, r)) :
    TextOnly r := by
  generalize hn : s.length = n
  induction n using Nat.strongRecOn generalizing s d w r with
  | ind n ih =>
    unfold commentRest at hq
    split at hq
    · cases hq
    · rename_i c t
      subst hn
      split at hq
      · rename_i hc
        subst hc
        have ht := textOnly_tail h (by decide)
        split at hq
        · injection hq with hq; injection hq with _ hq; subst hq; exact ht
        · obtain ⟨a, ha, he⟩ := map_ok_rest hq
          injection he with h5 h6
          subst h6
          exact ih t.length (Nat.lt_succ_self _) ht ha rfl
      · split at hq
        · rename_i hc
          subst hc
          have ht := textOnly_tail h (by decide)
          obtain ⟨a, ha, he⟩ := map_ok_rest hq
          injection he with h5 h6
          subst h6
          exact ih t.length (Nat.lt_succ_self _) ht ha rfl
        · split at hq
          · rename_i hc
            subst hc
            have ht := textOnly_tail h (by decide)
            split at hq
            · cases hq
            · rename_i d' u'
              split at hq
              · obtain ⟨a, ha, he⟩ := map_ok_rest hq
                injection he with h5 h6
                subst h6
                by_cases hr : d' = '\r'
                · subst hr
                  obtain ⟨e, v, rfl, _, _⟩ := textOnly_cr ht
                  rw [commentRest.eq_def] at ha
                  simp only at ha
                  rw [if_neg (by decide), if_neg (by decide), if_neg (by decide), dif_pos (by rw [textRun_lf])] at ha
                  cases ha
                · exact ih u'.length (by simp only [List.length_cons]; omega) (textOnly_tail ht hr) ha rfl
              · cases hq
          · split at hq
            · cases hq
            · rename_i hne
              have hl := textRun_lt hne
              obtain ⟨a, ha, he⟩ := map_ok_rest hq
              injection he with h5 h6
              subst h6
              exact ih _ hl (textOnly_textRun h) ha rfl

theorem textOnly_not_stuck {s : Str} (h : TextOnly s) : ¬ Stuck s := by
  rintro ⟨c, t, rfl, h1, h2, h3⟩
  cases h with
  | char _ _ hc ht =>
    have hctl : isCtl c = true := by
      cases hk : isCtl c with
      | true => rfl
      | false => unfold isTok at h2; rw [hk, h1] at h2; cases h2
    unfold isCtl at hctl
    simp only [Bool.or_eq_true, decide_eq_true_eq, beq_iff_eq] at hctl
    rcases hc with hc | hc
    · omega
    · subst hc; exact absurd h1 (by decide)
  | fold d t hd ht =>
    unfold lws crlf at h3
    simp [isSp_iff.mpr hd] at h3

theorem textOnly_oneWord {s r : Str} {w : Option Str} (h : TextOnly s) (ho : oneWord s = .ok (w, r)) : TextOnly r := by
  cases s with
  | nil => injection ho with ho; injection ho with _ ho; subst ho; exact h
  | cons c t =>
    unfold oneWord at ho
    simp only at ho
    split at ho
    · rename_i hc
      have ht : TextOnly t := textOnly_tail h (by intro e; subst e; exact absurd hc (by decide))
      split at ho
      · obtain ⟨a, ha, he⟩ := map_ok_rest ho
        injection he with h5 h6
        subst h6
        exact textOnly_commentRest ht ha
      · split at ho
        · obtain ⟨a, ha, he⟩ := map_ok_rest ho
          injection he with h5 h6
          subst h6
          exact textOnly_quotedRest ht ha
        · injection ho with ho; injection ho with _ ho; subst ho; exact ht
    · split at ho
      · injection ho with ho; injection ho with _ ho; subst ho; exact textOnly_dropWhile_tok h
      · injection ho with ho; injection ho with _ ho; subst ho; exact h

/-- **C128 (partial).**  A header value without control characters, folded lines allowed, is split into words or
rejected in finitely many rounds.  Missing: header values with other control characters, see `endless_refuted`. -/
theorem ends_partial (ignoreSpace : Bool) (s : Str) (h : TextOnly s) : Returns ignoreSpace s := by
  have key : words ignoreSpace s ≠ none := by
    unfold words
    generalize hn : s.length = n
    induction n using Nat.strongRecOn generalizing s with
    | ind n ih =>
      cases s with
      | nil => rw [wordLoop_nil]; simp
      | cons c t =>
        rw [wordLoop_cons]
        have hu := textOnly_skipLws h
        have hle := skipLws_le (c :: t)
        have he := skipLws_end (c :: t)
        generalize (skipLws (c :: t)).2 = u at hu hle he
        cases ho : oneWord u with
        | error e => simp
        | ok p =>
          obtain ⟨w, r⟩ := p
          have hr := textOnly_oneWord hu ho
          have hlt : wordLoop ignoreSpace n r ≠ none := by
            cases u with
            | nil =>
              injection ho with ho; injection ho with _ ho; subst ho
              rw [wordLoop_nil]; simp
            | cons d v =>
              rcases oneWord_step (by simp) he ho with h1 | ⟨h1, _, _⟩
              · have := ih r.length (by omega) r hr rfl
                rw [wordLoop_rounds _ _ _ (by omega)]
                exact this
              · exact absurd h1 (textOnly_not_stuck hu)
          simp only
          cases hx : wordLoop ignoreSpace n r with
          | none => exact absurd hx hlt
          | some x => simp
  cases hw : words ignoreSpace s with
  | none => exact absurd hw key
  | some r => exact ⟨_, r, hw⟩

theorem stuck_of_not_textOnly {s : Str} (h : ¬ TextOnly s) : ∃ pre st, s = pre ++ st ∧ TextOnly pre ∧ Stuck st := by
  generalize hn : s.length = n
  induction n using Nat.strongRecOn generalizing s with
  | ind n ih =>
    cases s with
    | nil => exact absurd .nil h
    | cons c t =>
      by_cases hc : (32 ≤ c.toNat ∧ c.toNat ≠ 127) ∨ c = '\t'
      · obtain ⟨pre, st, e, h1, h2⟩ := ih t.length (by simp only [List.length_cons] at hn; omega) (fun ht => h (.char c t hc ht)) rfl
        exact ⟨c :: pre, st, by rw [e]; rfl, .char c pre hc h1, h2⟩
      · have hctl : isCtl c = true ∧ isSep c = false := by
          constructor
          · unfold isCtl
            simp only [Bool.or_eq_true, decide_eq_true_eq, beq_iff_eq]
            omega
          · cases hs : isSep c with
            | false => rfl
            | true =>
              exfalso
              unfold isSep at hs
              rw [List.contains_iff_mem] at hs
              simp only [String.reduceToList, List.mem_cons, List.not_mem_nil, or_false] at hs
              rcases hs with hs | hs | hs | hs | hs | hs | hs | hs | hs | hs | hs | hs | hs | hs | hs | hs | hs | hs | hs <;>
                (subst hs; exact hc (by decide))
        have htok : isTok c = false := by unfold isTok; rw [hctl.1]; rfl
        by_cases hf : ∃ d u, c = '\r' ∧ t = '\n' :: d :: u ∧ isSp d = true
        · obtain ⟨d, u, rfl, rfl, hd⟩ := hf
          obtain ⟨pre, st, e, h1, h2⟩ := ih u.length (by simp only [List.length_cons] at hn; omega)
            (fun ht => h (.fold d u (isSp_iff.mp hd) ht)) rfl
          exact ⟨'\r' :: '\n' :: d :: pre, st, by rw [e]; rfl, .fold d pre (isSp_iff.mp hd) h1, h2⟩
        · refine ⟨[], c :: t, rfl, .nil, c, t, rfl, hctl.2, htok, ?_⟩
          have hsp : isSp c = false := by
            cases hs : isSp c with
            | false => rfl
            | true => rw [isSep_sp hs] at hctl; exact absurd hctl.2 (by decide)
          by_cases hr : c = '\r'
          · subst hr
            cases t with
            | nil => rfl
            | cons d u =>
              by_cases hd : d = '\n'
              · subst hd
                cases u with
                | nil => rfl
                | cons e v =>
                  have he : isSp e = false := by
                    cases hs : isSp e with
                    | false => rfl
                    | true => exact absurd ⟨e, v, rfl, rfl, hs⟩ hf
                  unfold lws crlf
                  simp [he]
              · have : crlf ('\r' :: d :: u) = none := by
                  unfold crlf
                  split
                  · rename_i h5; injection h5 with _ h5; injection h5 with h5 _; exact absurd h5 hd
                  · rfl
                unfold lws
                rw [this]
                simp [hsp]
          · exact lws_none hsp hr

theorem dropWhile_append_stop {p : Char → Bool} {t st : Str} (h : ∀ c u, st = c :: u → p c = false) :
    (t ++ st).dropWhile p = t.dropWhile p ++ st := by
  induction t with
  | nil =>
    cases st with
    | nil => rfl
    | cons c u => simp [h c u rfl]
  | cons c t ih =>
    rw [List.cons_append, List.dropWhile_cons, List.dropWhile_cons]
    split
    · exact ih
    · rfl

theorem takeWhile_append_stop' {p : Char → Bool} {t st : Str} (h : ∀ c u, st = c :: u → p c = false) :
    (t ++ st).takeWhile p = t.takeWhile p := by
  induction t with
  | nil =>
    cases st with
    | nil => rfl
    | cons c u => simp [h c u rfl]
  | cons c t ih =>
    rw [List.cons_append, List.takeWhile_cons, List.takeWhile_cons]
    split
    · rw [ih]
    · rfl

theorem mem_dropWhile {p : Char → Bool} {s : Str} {c : Char} (h : c ∈ s.dropWhile p) : c ∈ s :=
  (List.dropWhile_sublist p).subset h

theorem lws_append {s st : Str} (h : TextOnly s) (hst : Stuck st) :
    (lws (s ++ st) = none ∧ lws s = none) ∨
      (∃ w r, lws (s ++ st) = some (w, r ++ st) ∧ TextOnly r ∧ r.length < s.length ∧ ∀ c ∈ r, c ∈ s) := by
  obtain ⟨k, v, hk, h1, h2, h3⟩ := hst
  have hstop : ∀ c u, st = c :: u → isSp c = false := by
    intro c u e
    rw [hk] at e
    injection e with e _
    subst e
    cases hs : isSp k with
    | false => rfl
    | true => rw [isSep_sp hs] at h1; cases h1
  cases s with
  | nil => exact .inl ⟨h3, rfl⟩
  | cons c t =>
    by_cases hc : c = '\r'
    · subst hc
      obtain ⟨d, u, rfl, hd, hu⟩ := textOnly_cr h
      right
      refine ⟨'\r' :: '\n' :: d :: u.takeWhile isSp, u.dropWhile isSp, ?_, textOnly_dropWhile_sp hu, ?_, ?_⟩
      · show lws ('\r' :: '\n' :: d :: (u ++ st)) = _
        unfold lws crlf
        simp [hd, takeWhile_append_stop' hstop, dropWhile_append_stop hstop]
      · have := dropWhile_le isSp u
        simp only [List.length_cons]; omega
      · intro x hx
        simp [mem_dropWhile hx]
    · cases hs : isSp c with
      | false => exact .inl ⟨lws_none hs hc, lws_none hs hc⟩
      | true =>
        right
        refine ⟨c :: t.takeWhile isSp, t.dropWhile isSp, ?_, textOnly_dropWhile_sp (textOnly_tail h hc), ?_, ?_⟩
        · show lws (c :: (t ++ st)) = _
          rw [lws_sp hs, takeWhile_append_stop' hstop, dropWhile_append_stop hstop]
        · have := dropWhile_le isSp t
          simp only [List.length_cons]; omega
        · intro x hx
          simp [mem_dropWhile hx]

theorem skipLws_append {s st : Str} (h : TextOnly s) (hst : Stuck st) :
    ∃ r, (skipLws (s ++ st)).2 = r ++ st ∧ TextOnly r ∧ r.length ≤ s.length ∧ lws r = none ∧ ∀ c ∈ r, c ∈ s := by
  generalize hn : s.length = n
  induction n using Nat.strongRecOn generalizing s with
  | ind n ih =>
    rcases lws_append h hst with ⟨h1, h2⟩ | ⟨w, r, h1, h2, h3, h4⟩
    · rw [skipLws_none h1]
      exact ⟨s, rfl, h, by omega, h2, fun c hc => hc⟩
    · rw [skipLws_some h1]
      obtain ⟨r', e, h5, h6, h7, h8⟩ := ih r.length (by omega) h2 rfl
      exact ⟨r', e, h5, by omega, h7, fun c hc => h4 c (h8 c hc)⟩

theorem wordLoop_reaches (ign : Bool) {s st : Str} (h : TextOnly s) (h1 : '(' ∉ s) (h2 : '"' ∉ s) (hst : Stuck st) (n : Nat) :
    wordLoop ign n (s ++ st) = none := by
  induction n generalizing s with
  | zero =>
    obtain ⟨k, v, hk, _⟩ := hst
    subst hk
    cases s <;> rfl
  | succ n ih =>
    have hcons : ∃ c t, s ++ st = c :: t := by
      obtain ⟨k, v, hk, _⟩ := hst
      subst hk
      cases s with
      | nil => exact ⟨k, v, rfl⟩
      | cons c t => exact ⟨c, t ++ k :: v, rfl⟩
    obtain ⟨c0, t0, e0⟩ := hcons
    rw [e0, wordLoop_cons, ← e0]
    obtain ⟨r, e, hr, _, hl, hm⟩ := skipLws_append h hst
    rw [e]
    cases r with
    | nil =>
      obtain ⟨k, v, rfl, h3, h4, h5⟩ := hst
      have : oneWord ([] ++ k :: v) = .ok (none, k :: v) := by
        show oneWord (k :: v) = _
        unfold oneWord
        simp only
        rw [if_neg (by rw [h3]; decide), if_neg (by rw [h4]; decide)]
      rw [this]
      simp only
      rw [wordLoop_stuck ign ⟨k, v, rfl, h3, h4, h5⟩]
      rfl
    | cons c t =>
      have hcr : c ≠ '\r' := by
        intro ec
        subst ec
        obtain ⟨d, u, rfl, hd, _⟩ := textOnly_cr hr
        unfold lws crlf at hl
        simp [hd] at hl
      have ht := textOnly_tail hr hcr
      have hc1 : c ≠ '(' := fun e => h1 (e ▸ hm c (by simp))
      have hc2 : c ≠ '"' := fun e => h2 (e ▸ hm c (by simp))
      have hns := textOnly_not_stuck hr
      have hstop : ∀ d u, st = d :: u → isTok d = false := by
        obtain ⟨k, v, hk, h3, h4, h5⟩ := hst
        intro d u e
        rw [hk] at e
        injection e with e _
        subst e
        exact h4
      have : ∃ w r', oneWord (c :: t ++ st) = .ok (w, r' ++ st) ∧ TextOnly r' ∧ (∀ x ∈ r', x ∈ c :: t) := by
        show ∃ w r', oneWord (c :: (t ++ st)) = .ok (w, r' ++ st) ∧ _
        unfold oneWord
        simp only
        cases hsep : isSep c with
        | true =>
          rw [if_pos rfl, if_neg hc1, if_neg hc2]
          exact ⟨_, t, rfl, ht, fun x hx => by simp [hx]⟩
        | false =>
          rw [if_neg (by decide)]
          cases htok : isTok c with
          | true =>
            rw [if_pos rfl]
            refine ⟨some ((c :: (t ++ st)).takeWhile isTok), t.dropWhile isTok, ?_, textOnly_dropWhile_tok ht, fun x hx => by simp [mem_dropWhile hx]⟩
            rw [List.dropWhile_cons, htok, if_pos rfl, dropWhile_append_stop hstop]
          | false => exact absurd ⟨c, t, rfl, hsep, htok, hl⟩ hns
      obtain ⟨w, r', ew, hr', hm'⟩ := this
      rw [ew]
      simp only
      rw [ih hr' (fun hx => h1 (hm _ (hm' _ hx))) (fun hx => h2 (hm _ (hm' _ hx)))]
      rfl

/-- **C128.**  A header value without brackets and quotes is read to an end exactly when it has no control characters
other than tabs and the line breaks of folded lines. -/
theorem ends_exact (ignoreSpace : Bool) (s : Str) (h1 : '(' ∉ s) (h2 : '"' ∉ s) : Returns ignoreSpace s ↔ TextOnly s := by
  constructor
  · rintro ⟨n, r, hr⟩
    refine Classical.byContradiction fun hn => ?_
    obtain ⟨pre, st, e, h3, h4⟩ := stuck_of_not_textOnly hn
    subst e
    rw [wordLoop_reaches ignoreSpace h3 (fun hx => h1 (by simp [hx])) (fun hx => h2 (by simp [hx])) h4] at hr
    cases hr
  · exact ends_partial ignoreSpace s

/-- **C128 refuted.**  A control character after the text of a header value makes every reader of header values run for
ever, whatever it is looking for. -/
theorem endless_refuted {α : Type} (ignoreSpace : Bool) (m : P α) (s rest : Str) (c : Char) (hs : TextOnly s)
    (h1 : '(' ∉ s) (h2 : '"' ∉ s) (hc : c.toNat < 32 ∨ c.toNat = 127) (ht : c ≠ '\t') (hr : c ≠ '\r') :
    ¬ Returns ignoreSpace (s ++ c :: rest) ∧ fromString ignoreSpace m (s ++ c :: rest) = none := by
  have hst : Stuck (c :: rest) := by
    have hctl : isCtl c = true := by unfold isCtl; simpa using hc
    have hsep : isSep c = false := by
      cases hs : isSep c with
      | false => rfl
      | true =>
        exfalso
        unfold isSep at hs
        rw [List.contains_iff_mem] at hs
        simp only [String.reduceToList, List.mem_cons, List.not_mem_nil, or_false] at hs
        rcases hs with hs | hs | hs | hs | hs | hs | hs | hs | hs | hs | hs | hs | hs | hs | hs | hs | hs | hs | hs <;>
          first
          | exact ht hs
          | (subst hs; revert hc; decide)
    have htok : isTok c = false := by unfold isTok; rw [hctl]; rfl
    refine ⟨c, rest, rfl, hsep, htok, lws_none ?_ hr⟩
    cases hs : isSp c with
    | false => rfl
    | true => rw [isSep_sp hs] at hsep; cases hsep
  have hall := wordLoop_reaches ignoreSpace hs h1 h2 hst
  constructor
  · rintro ⟨n, r, hn⟩
    rw [hall] at hn
    cases hn
  · unfold fromString words
    rw [hall]
    rfl

/-- The hypotheses of the theorems about C128 are met: a folded list with a tab, and an ordinary value followed by a
control character; the folded list is split as expected. -/
theorem ends_hypotheses :
    TextOnly "text/html,\r\n\ttext/plain".toList ∧ '(' ∉ "text/html".toList ∧ '"' ∉ "text/html".toList ∧
    words true "text/html,\r\n\ttext/plain".toList =
      some (.ok (["text", "/", "html", ",", "text", "/", "plain"].map fun w => some w.toList)) ∧
    fromString true parseToken ("text/html".toList ++ '\x01' :: []) = none := by
  refine ⟨?_, by decide +kernel, by decide +kernel, by decide +kernel, by decide +kernel⟩
  have key : ∀ s : Str, (s.all fun c => decide (32 ≤ c.toNat ∧ c.toNat ≠ 127)) = true → TextOnly s := by
    intro s
    induction s with
    | nil => intro _; exact .nil
    | cons c t ih =>
      intro h
      simp only [List.all_cons, Bool.and_eq_true, decide_eq_true_eq] at h
      exact .char c t (.inl h.1) (ih h.2)
  have happ : ∀ s t : Str, TextOnly s → TextOnly t → TextOnly (s ++ t) := by
    intro s t hs ht
    induction hs with
    | nil => exact ht
    | char c _ hc _ ih => exact .char c _ hc ih
    | fold c _ hc _ ih => exact .fold c _ hc ih
  exact happ "text/html,".toList ('\r' :: '\n' :: '\t' :: "text/plain".toList) (key _ (by decide +kernel))
    (.fold '\t' _ (.inr rfl) (key _ (by decide +kernel)))

/-! ## C129 -/

/-- **C129.**  Text put in quotes is decoded to itself, whatever it contains. -/
theorem quote_exact (s : Str) : decodeQuoted (quoteString s true) = s := decode_quote s

theorem quotedRest_wide (u : Bool) (s rest : Str) (h : s.all isOctet = false) :
    quotedRest u (esc s ++ rest) = .error .valueError := by
  induction s with
  | nil => cases h
  | cons c s ih =>
    unfold esc
    rw [List.flatMap_cons]
    cases ho : isOctet c with
    | false =>
      have hbig : 256 ≤ c.toNat := by unfold isOctet at ho; rw [decide_eq_false_iff_not] at ho; omega
      have he : escaped c = false := by
        cases he : escaped c with
        | false => rfl
        | true =>
          have := escaped_char he
          unfold isChar at this
          rw [decide_eq_true_eq] at this
          omega
      have hn := not_escaped he
      rw [if_neg (by rw [he]; decide)]
      show quotedRest u (c :: _) = _
      rw [quotedRest_text u _ hn.1 hn.2.1, if_pos]
      rw [textRun]
      split
      · rfl
      · split
        · rfl
        · rename_i w r hw
          exfalso
          have hsp : isSp c = false := by
            cases hs : isSp c with
            | false => rfl
            | true => rcases isSp_iff.mp hs with e | e <;> subst e <;> exact absurd hbig (by decide)
          have hcr : c ≠ '\r' := by intro e; subst e; exact absurd hbig (by decide)
          unfold oneText at hw
          rw [lws_none hsp hcr] at hw
          simp [ho] at hw
    | true =>
      have ih := ih (by simpa [ho] using h)
      cases he : escaped c with
      | true =>
        rw [if_pos rfl]
        show quotedRest u ('\\' :: c :: (esc s ++ rest)) = _
        rw [quotedRest_pair, if_pos (escaped_char he), ih]
        rfl
      | false =>
        have hn := not_escaped he
        rw [if_neg (by decide)]
        show quotedRest u (c :: (esc s ++ rest)) = _
        rw [quotedRest_plain hn.1 hn.2.1 ho hn.2.2, ih]
        rfl

/-- **C129.**  In a header value, quoted text is one word, whatever follows it, exactly when its characters are octets;
other characters make the value unreadable. -/
theorem quoted_word_exact (ignoreSpace : Bool) (s rest : Str) :
    (s.all isOctet = true → ∀ ws, words ignoreSpace rest = some (.ok ws) →
      words ignoreSpace (quoteString s true ++ rest) = some (.ok (some (quoteString s true) :: ws))) ∧
    (s.all isOctet = false → words ignoreSpace (quoteString s true ++ rest) = some (.error .valueError)) := by
  constructor
  · intro h ws hw
    exact words_quoted h hw
  · intro h
    rw [quoteString_forced]
    unfold words
    show wordLoop ignoreSpace _ ('"' :: (esc s ++ ['"'] ++ rest)) = _
    rw [wordLoop_cons, skipLws_none (lws_none (by decide) (by decide))]
    have : oneWord ('"' :: (esc s ++ ['"'] ++ rest)) = .error .valueError := by
      unfold oneWord
      simp only
      rw [if_pos (by decide), if_neg (by decide), if_pos trivial, List.append_assoc, quotedRest_wide true s _ h]
      rfl
    simp only [this]

/-- The text of a word that may stand as the value of a parameter: a token itself, a quoted string decoded. -/
def wordText (w : Str) : Str := if w.head? = some '"' then decodeQuoted w else w

/-- **C129 (partial).**  Text written as the value of a parameter, in quotes only if it is not a token, is one word with
that text, provided it is not empty and either it is a token or its characters are octets.  Missing: empty values, see
`empty_value_refuted`. -/
theorem value_word_partial (ignoreSpace : Bool) (s rest : Str) (ws : Words) (hs : s ≠ [])
    (ho : s.all isTok = true ∨ s.all isOctet = true) (hr : ∀ c u, rest = c :: u → isTok c = false)
    (hw : words ignoreSpace rest = some (.ok ws)) :
    ∃ w, words ignoreSpace (quoteString s false ++ rest) = some (.ok (some w :: ws)) ∧ wordText w = s := by
  cases ht : s.all isTok with
  | true =>
    rw [quote_token ht]
    refine ⟨s, words_token ⟨hs, ht⟩ hr hw, ?_⟩
    cases s with
    | nil => exact absurd rfl hs
    | cons c t =>
      simp only [List.all_cons, Bool.and_eq_true] at ht
      have hc : c ≠ '"' := by intro e; subst e; exact absurd ht.1 (by decide)
      unfold wordText
      simp [hc]
  | false =>
    have ho' : s.all isOctet = true := by
      rcases ho with h | h
      · rw [ht] at h; cases h
      · exact h
    rw [quote_other ht]
    refine ⟨_, words_quoted ho' hw, ?_⟩
    unfold wordText
    rw [if_pos (by rw [quoteString_forced]; rfl)]
    exact decode_quote s

/-- **C129 refuted.**  The empty text written as the value of a parameter is no word at all, and quoted text that is not
closed is accepted without its last character. -/
theorem empty_value_refuted :
    (∀ (ignoreSpace : Bool) (rest : Str), words ignoreSpace (quoteString [] false ++ rest) = words ignoreSpace rest) ∧
    words true "\"abc".toList = some (.ok [some "\"abc".toList]) ∧ wordText "\"abc".toList = "ab".toList := by
  refine ⟨fun _ _ => rfl, by decide +kernel, by decide +kernel⟩

/-- The hypotheses of the theorems about C129 are met by text with quotes, backslashes and controls, before another
parameter. -/
theorem quote_hypotheses :
    let s := "say \"hi\"\\\x01".toList
    let rest := "; b=c".toList
    s ≠ [] ∧ s.all isOctet = true ∧ (∀ c u, rest = c :: u → isTok c = false) ∧
      words false rest = some (.ok ([";", " ", "b", "=", "c"].map fun w => some w.toList)) ∧
      quoteString s true = "\"say \\\"hi\\\"\\\\\\\x01\"".toList := by
  refine ⟨by decide, by decide +kernel, ?_, by decide +kernel, by decide +kernel⟩
  intro c u h
  injection h with h _
  subst h
  decide

end Verif.Props
