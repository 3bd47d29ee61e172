import Verif.Model.HttpWords

/-!
# Lemmas about the words of a header value
-/

namespace Verif.Http

open Verif

set_option linter.unusedSimpArgs false

/-! ### White space -/

theorem isSp_iff {c : Char} : isSp c = true ↔ c = ' ' ∨ c = '\t' := by simp [isSp]

theorem isSep_sp {c : Char} (h : isSp c = true) : isSep c = true := by
  rcases isSp_iff.mp h with h | h <;> subst h <;> decide

theorem lws_none {c : Char} {t : Str} (h1 : isSp c = false) (h2 : c ≠ '\r') : lws (c :: t) = none := by
  have hc : crlf (c :: t) = none := by
    unfold crlf
    split
    · rename_i h; injection h with h _; exact absurd h h2
    · rfl
  unfold lws
  rw [hc]
  simp [h1]

theorem lws_sp {c : Char} {t : Str} (h1 : isSp c = true) :
    lws (c :: t) = some (c :: t.takeWhile isSp, t.dropWhile isSp) := by
  have hc : crlf (c :: t) = none := by
    unfold crlf
    split
    · rename_i h; injection h with h _; subst h; exact absurd h1 (by decide)
    · rfl
  unfold lws
  rw [hc]
  simp [h1]

theorem lws_nil : lws [] = none := rfl

theorem skipLws_some {s w r : Str} (h : lws s = some (w, r)) : skipLws s = (true, (skipLws r).2) := by
  rw [skipLws]
  split
  · rename_i h2; rw [h] at h2; cases h2
  · rename_i w' r' h2
    rw [h] at h2
    injection h2 with h2
    injection h2 with h3 h4
    subst h4
    rfl

theorem skipLws_none {s : Str} (h : lws s = none) : skipLws s = (false, s) := by
  rw [skipLws]
  split
  · rfl
  · rename_i w r h2; rw [h] at h2; cases h2

theorem skipLws_le (s : Str) : (skipLws s).2.length ≤ s.length := by
  generalize hn : s.length = n
  induction n using Nat.strongRecOn generalizing s with
  | ind n ih =>
    cases h : lws s with
    | none => rw [skipLws_none h]; show s.length ≤ n; omega
    | some p =>
      obtain ⟨w, r⟩ := p
      have hl := lws_lt h
      rw [skipLws_some h]
      have := ih r.length (by omega) r rfl
      show (skipLws r).2.length ≤ n
      omega

theorem skipLws_end (s : Str) : lws (skipLws s).2 = none := by
  generalize hn : s.length = n
  induction n using Nat.strongRecOn generalizing s with
  | ind n ih =>
    cases h : lws s with
    | none => rw [skipLws_none h]; exact h
    | some p =>
      obtain ⟨w, r⟩ := p
      have hl := lws_lt h
      rw [skipLws_some h]
      exact ih r.length (by omega) r rfl

/-! ### Rounds -/

theorem map_ok_rest {ε α β : Type} {x : Except ε α} {f : α → β} {b : β} (h : x.map f = .ok b) : ∃ a, x = .ok a ∧ f a = b := by
  cases x with
  | error e => cases h
  | ok a => injection h with h; exact ⟨a, rfl, h⟩

theorem quotedRest_nil (u : Bool) : quotedRest u [] = .ok ([], []) := by rw [quotedRest.eq_def]

theorem quotedRest_quote (u : Bool) (t : Str) : quotedRest u ('"' :: t) = .ok (['"'], t) := by
  rw [quotedRest.eq_def]; rfl

theorem quotedRest_pair (u : Bool) (d : Char) (t : Str) : quotedRest u ('\\' :: d :: t) =
    if isChar d then (quotedRest u t).map fun p => ('\\' :: d :: p.1, p.2) else .error .valueError := by
  rw [quotedRest.eq_def]; simp

theorem quotedRest_backslash (u : Bool) : quotedRest u ['\\'] = .error .typeError := by
  rw [quotedRest.eq_def]; simp

theorem quotedRest_text (u : Bool) {c : Char} (t : Str) (h1 : c ≠ '"') (h2 : c ≠ '\\') : quotedRest u (c :: t) =
    if (textRun ['\\', '"'] u (c :: t)).1 = [] then .error .valueError
    else (quotedRest u (textRun ['\\', '"'] u (c :: t)).2).map fun p => ((textRun ['\\', '"'] u (c :: t)).1 ++ p.1, p.2) := by
  rw [quotedRest.eq_def]
  simp only
  rw [if_neg h1, if_neg h2]
  split <;> rfl

theorem quotedRest_le {u : Bool} {s w r : Str} (h : quotedRest u s = .ok (w, r)) : r.length ≤ s.length := by
  generalize hn : s.length = n
  induction n using Nat.strongRecOn generalizing s w r with
  | ind n ih =>
    cases s with
    | nil => rw [quotedRest_nil] at h; injection h with h; injection h with h1 h2; subst h2; exact Nat.zero_le _
    | cons c t =>
      subst hn
      by_cases h1 : c = '"'
      · subst h1; rw [quotedRest_quote] at h; injection h with h; injection h with h1 h2; subst h2; exact Nat.le_succ _
      · by_cases h2 : c = '\\'
        · subst h2
          cases t with
          | nil => rw [quotedRest_backslash] at h; cases h
          | cons d t =>
            rw [quotedRest_pair] at h
            split at h
            · obtain ⟨a, ha, he⟩ := map_ok_rest h
              injection he with h5 h6
              subst h6
              have := ih t.length (by simp only [List.length_cons]; omega) ha rfl
              simp only [List.length_cons]; omega
            · cases h
        · rw [quotedRest_text u t h1 h2] at h
          split at h
          · cases h
          · rename_i hne
            have hl := textRun_lt hne
            obtain ⟨a, ha, he⟩ := map_ok_rest h
            injection he with h5 h6
            subst h6
            have := ih _ hl ha rfl
            omega

theorem commentRest_le {u : Bool} {d : Nat} {s w r : Str} (h : commentRest u d s = .ok (w, r)) : r.length ≤ s.length := by
  generalize hn : s.length = n
  induction n using Nat.strongRecOn generalizing s d w r with
  | ind n ih =>
    unfold commentRest at h
    split at h
    · cases h
    · rename_i c t
      subst hn
      split at h
      · split at h
        · injection h with h; injection h with h1 h2; subst h2; exact Nat.le_succ _
        · obtain ⟨a, ha, he⟩ := map_ok_rest h
          injection he with h5 h6
          subst h6
          have := ih t.length (Nat.lt_succ_self _) ha rfl
          simp only [List.length_cons]; omega
      · split at h
        · obtain ⟨a, ha, he⟩ := map_ok_rest h
          injection he with h5 h6
          subst h6
          have := ih t.length (Nat.lt_succ_self _) ha rfl
          simp only [List.length_cons]; omega
        · split at h
          · split at h
            · cases h
            · rename_i d' u'
              split at h
              · obtain ⟨a, ha, he⟩ := map_ok_rest h
                injection he with h5 h6
                subst h6
                have := ih u'.length (by simp only [List.length_cons]; omega) ha rfl
                simp only [List.length_cons]; omega
              · cases h
          · split at h
            · cases h
            · rename_i hne
              have hl := textRun_lt hne
              obtain ⟨a, ha, he⟩ := map_ok_rest h
              injection he with h5 h6
              subst h6
              have := ih _ hl ha rfl
              omega

/-- A source at which the loop is stuck: it begins with a control character that is neither a tab nor the beginning of
folded white space. -/
def Stuck (s : Str) : Prop := ∃ c t, s = c :: t ∧ isSep c = false ∧ isTok c = false ∧ lws s = none

theorem oneWord_step {s r : Str} {w : Option Str} (hs : s ≠ []) (hl : lws s = none) (h : oneWord s = .ok (w, r)) :
    (r.length < s.length) ∨ (Stuck s ∧ r = s ∧ w = none) := by
  cases s with
  | nil => exact absurd rfl hs
  | cons c t =>
    unfold oneWord at h
    simp only at h
    by_cases h1 : isSep c = true
    · rw [if_pos h1] at h
      left
      by_cases h2 : c = '('
      · rw [if_pos h2] at h
        obtain ⟨a, ha, he⟩ := map_ok_rest h
        injection he with h5 h6
        subst h6
        exact Nat.lt_succ_of_le (commentRest_le ha)
      · rw [if_neg h2] at h
        by_cases h3 : c = '"'
        · rw [if_pos h3] at h
          obtain ⟨a, ha, he⟩ := map_ok_rest h
          injection he with h5 h6
          subst h6
          exact Nat.lt_succ_of_le (quotedRest_le ha)
        · rw [if_neg h3] at h
          injection h with h
          injection h with h4 h5
          subst h5
          exact Nat.lt_succ_self _
    · rw [if_neg h1] at h
      by_cases h2 : isTok c = true
      · rw [if_pos h2] at h
        injection h with h
        injection h with h4 h5
        subst h5
        left
        rw [List.dropWhile_cons, h2]
        exact Nat.lt_succ_of_le (dropWhile_le isTok t)
      · rw [if_neg h2] at h
        injection h with h
        injection h with h4 h5
        subst h5
        exact .inr ⟨⟨c, t, rfl, Bool.eq_false_iff.mpr h1, Bool.eq_false_iff.mpr h2, hl⟩, rfl, h4.symm⟩

theorem wordLoop_cons (ign : Bool) (n : Nat) (c : Char) (t : Str) :
    wordLoop ign (n + 1) (c :: t) =
      match oneWord (skipLws (c :: t)).2 with
      | .error e => some (.error e)
      | .ok (w, r) =>
        (wordLoop ign n r).map fun ws =>
          ws.map fun ws => (if (skipLws (c :: t)).1 && !ign then [some [' ']] else []) ++ w :: ws := rfl

theorem wordLoop_nil (ign : Bool) (n : Nat) : wordLoop ign n [] = some (.ok []) := by cases n <;> rfl

theorem wordLoop_stuck (ign : Bool) {s : Str} (h : Stuck s) (n : Nat) : wordLoop ign n s = none := by
  obtain ⟨c, t, rfl, h1, h2, h3⟩ := h
  induction n with
  | zero => rfl
  | succ n ih =>
    rw [wordLoop_cons, skipLws_none h3]
    have : oneWord (c :: t) = .ok (none, c :: t) := by
      unfold oneWord
      simp only
      rw [if_neg (by rw [h1]; decide), if_neg (by rw [h2]; decide)]
    simp only [this, ih]
    rfl

theorem wordLoop_rounds (ign : Bool) (s : Str) (n : Nat) (h : s.length + 1 ≤ n) :
    wordLoop ign n s = wordLoop ign (s.length + 1) s := by
  generalize hl : s.length = k
  induction k using Nat.strongRecOn generalizing s n with
  | ind k ih =>
    cases s with
    | nil => rw [wordLoop_nil, wordLoop_nil]
    | cons c t =>
      obtain ⟨m, rfl⟩ : ∃ m, n = m + 1 := ⟨n - 1, by omega⟩
      rw [wordLoop_cons, wordLoop_cons]
      cases hw : oneWord (skipLws (c :: t)).2 with
      | error e => rfl
      | ok p =>
        obtain ⟨w, r⟩ := p
        simp only
        have hle := skipLws_le (c :: t)
        by_cases hs : (skipLws (c :: t)).2 = []
        · rw [hs] at hw
          injection hw with hw
          injection hw with h1 h2
          subst h2
          rw [wordLoop_nil, wordLoop_nil]
        · rcases oneWord_step hs (skipLws_end _) hw with hlt | ⟨hst, hr, _⟩
          · rw [ih r.length (by omega) r m (by simp only [List.length_cons] at h hle; omega) rfl,
              ih r.length (by omega) r k (by omega) rfl]
          · subst hr
            rw [wordLoop_stuck ign hst, wordLoop_stuck ign hst]

/-- A constructor that has not returned after this many rounds never returns. -/
theorem words_none_iff (ign : Bool) (s : Str) : words ign s = none ↔ ∀ n, wordLoop ign n s = none := by
  constructor
  · intro h n
    by_cases hn : s.length + 1 ≤ n
    · rw [wordLoop_rounds ign s n hn]; exact h
    · cases hw : wordLoop ign n s with
      | none => rfl
      | some r =>
        exfalso
        have mono : ∀ (n m : Nat) (s : Str) (r), n ≤ m → wordLoop ign n s = some r → wordLoop ign m s = some r := by
          intro n
          induction n with
          | zero =>
            intro m s r _ h
            cases s with
            | nil => rw [wordLoop_nil] at h ⊢; exact h
            | cons => cases h
          | succ n ih =>
            intro m s r hm h
            cases s with
            | nil => rw [wordLoop_nil] at h ⊢; exact h
            | cons c t =>
              obtain ⟨m', rfl⟩ : ∃ m', m = m' + 1 := ⟨m - 1, by omega⟩
              rw [wordLoop_cons] at h ⊢
              cases hw : oneWord (skipLws (c :: t)).2 with
              | error e => rw [hw] at h; exact h
              | ok p =>
                obtain ⟨w, r'⟩ := p
                rw [hw] at h
                simp only at h ⊢
                cases hr : wordLoop ign n r' with
                | none => rw [hr] at h; cases h
                | some x => rw [hr] at h; rw [ih m' r' x (by omega) hr]; exact h
        have := mono n (s.length + 1) s r (by omega) hw
        unfold words at h
        rw [h] at this
        cases this
  · intro h
    exact h _

/-! ### Spelling words -/

theorem words_step {ign b : Bool} {s u r : Str} {w : Option Str} {ws : Words} (hs : s ≠ []) (h1 : skipLws s = (b, u))
    (h2 : oneWord u = .ok (w, r)) (h3 : r.length < s.length) (h4 : words ign r = some (.ok ws)) :
    words ign s = some (.ok ((if b && !ign then [some [' ']] else []) ++ w :: ws)) := by
  cases s with
  | nil => exact absurd rfl hs
  | cons c t =>
    unfold words
    rw [wordLoop_cons, h1]
    simp only
    rw [h2]
    simp only
    have : wordLoop ign (c :: t).length r = some (.ok ws) := by
      rw [wordLoop_rounds ign r _ (by omega)]
      exact h4
    rw [this]
    rfl

theorem words_nil (ign : Bool) : words ign [] = some (.ok []) := wordLoop_nil ign _

theorem tok_not_sp {c : Char} (h : isTok c = true) : isSp c = false ∧ isSep c = false ∧ isCtl c = false ∧ c ≠ '\r' := by
  have h1 : isCtl c = false ∧ isSep c = false := by simpa [isTok] using h
  refine ⟨?_, h1.2, h1.1, ?_⟩
  · cases hs : isSp c with
    | false => rfl
    | true => rw [isSep_sp hs] at h1; exact absurd h1.2 (by decide)
  · intro hc
    subst hc
    exact absurd h1.1 (by decide)

theorem takeWhile_append_stop {p : Char → Bool} {t rest : Str} (h : t.all p = true) (hr : ∀ c u, rest = c :: u → p c = false) :
    (t ++ rest).takeWhile p = t ∧ (t ++ rest).dropWhile p = rest := by
  induction t with
  | nil =>
    cases rest with
    | nil => exact ⟨rfl, rfl⟩
    | cons c u => simp [hr c u rfl]
  | cons c t ih =>
    simp only [List.all_cons, Bool.and_eq_true] at h
    have := ih h.2
    simp [h.1, this.1, this.2]

/-- A token: not empty, no separators, no controls. -/
def Token (t : Str) : Prop := t ≠ [] ∧ t.all isTok = true

theorem words_token {ign : Bool} {t rest : Str} {ws : Words} (ht : Token t) (hr : ∀ c u, rest = c :: u → isTok c = false)
    (h : words ign rest = some (.ok ws)) : words ign (t ++ rest) = some (.ok (some t :: ws)) := by
  obtain ⟨hne, hall⟩ := ht
  cases t with
  | nil => exact absurd rfl hne
  | cons c t =>
    have hc : isTok c = true := by simp only [List.all_cons, Bool.and_eq_true] at hall; exact hall.1
    have hn := tok_not_sp hc
    have htw := takeWhile_append_stop hall hr
    have := @words_step ign false (c :: t ++ rest) (c :: t ++ rest) rest (some (c :: t)) ws (by simp)
      (skipLws_none (lws_none hn.1 hn.2.2.2))
      (by
        show oneWord (c :: (t ++ rest)) = _
        unfold oneWord
        simp only
        rw [if_neg (by rw [hn.2.1]; decide), if_pos hc]
        have e : c :: (t ++ rest) = c :: t ++ rest := rfl
        rw [e, htw.1, htw.2])
      (by simp only [List.length_append, List.length_cons]; omega) h
    simpa using this

theorem words_sep {ign : Bool} {c : Char} {rest : Str} {ws : Words} (hc : isSep c = true) (h1 : c ≠ '(') (h2 : c ≠ '"')
    (h3 : isSp c = false) (h : words ign rest = some (.ok ws)) : words ign (c :: rest) = some (.ok (some [c] :: ws)) := by
  have hr : c ≠ '\r' := by intro e; subst e; exact absurd hc (by decide)
  have := @words_step ign false (c :: rest) (c :: rest) rest (some [c]) ws (by simp)
    (skipLws_none (lws_none h3 hr))
    (by unfold oneWord; simp only; rw [if_pos hc, if_neg h1, if_neg h2])
    (Nat.lt_succ_self _) h
  simpa using this

theorem words_space {ign : Bool} {c : Char} {t : Str} {ws : Words} (h1 : isSp c = false) (h2 : c ≠ '\r')
    (h : words ign (c :: t) = some (.ok ws)) :
    words ign (' ' :: c :: t) = some (.ok ((if ign then [] else [some [' ']]) ++ ws)) := by
  have hl := lws_none (t := t) h1 h2
  have hs : skipLws (' ' :: c :: t) = (true, c :: t) := by
    have : lws (' ' :: c :: t) = some ([' '], c :: t) := by
      rw [lws_sp (by decide)]
      simp [h1]
    rw [skipLws_some this, skipLws_none hl]
  unfold words at h ⊢
  rw [wordLoop_cons, skipLws_none hl] at h
  rw [wordLoop_cons, hs]
  simp only at h ⊢
  cases ho : oneWord (c :: t) with
  | error e => rw [ho] at h; cases h
  | ok p =>
    obtain ⟨w, r⟩ := p
    rw [ho] at h
    simp only at h ⊢
    cases hw : wordLoop ign (c :: t).length r with
    | none => rw [hw] at h; cases h
    | some x =>
      have hw2 : wordLoop ign (' ' :: c :: t).length r = some x := by
        rcases oneWord_step (by simp) hl ho with hlt | ⟨hst, hr, _⟩
        · rw [wordLoop_rounds ign r _ (by simp only [List.length_cons] at hlt ⊢; omega),
            ← wordLoop_rounds ign r (c :: t).length (by omega)]
          exact hw
        · subst hr; rw [wordLoop_stuck ign hst] at hw; cases hw
      rw [hw] at h
      rw [hw2]
      cases x with
      | error e => cases h
      | ok l =>
        simp only [Option.map_some, Except.map, Bool.false_and, Bool.false_eq_true, if_false, List.nil_append,
          Option.some.injEq, Except.ok.injEq] at h
        subst h
        cases ign <;> simp [Except.map]

/-! ### Quoted strings -/

theorem textRun_plain {stop : Str} {u : Bool} {c : Char} {t : Str} (hs : stop.contains c = false)
    (hs1 : stop.contains ' ' = false) (hs2 : stop.contains '\t' = false)
    (ho : isOctet c = true) (hc : isCtl c = false ∨ isSp c = true) :
    textRun stop u (c :: t) = (c :: (textRun stop u t).1, (textRun stop u t).2) := by
  have one : ∀ {c : Char} {t w r : Str}, stop.contains c = false → oneText u (c :: t) = some (w, r) →
      textRun stop u (c :: t) = (w ++ (textRun stop u r).1, (textRun stop u r).2) := by
    intro c t w r h1 h2
    rw [textRun]
    rw [if_neg (by rw [h1]; decide)]
    split
    · rename_i h3; rw [h2] at h3; cases h3
    · rename_i w' r' h3
      rw [h2] at h3
      injection h3 with h3
      injection h3 with h4 h5
      subst h4 h5
      rfl
  have sp : ∀ {c : Char} {t : Str}, isSp c = true → oneText u (c :: t) = some (c :: t.takeWhile isSp, t.dropWhile isSp) := by
    intro c t h
    unfold oneText
    rw [lws_sp h]
    have : (c :: t.takeWhile isSp).take 2 ≠ ['\r', '\n'] := by
      intro e
      rw [List.take_succ_cons] at e
      injection e with e _
      subst e
      exact absurd h (by decide)
    dsimp only
    rw [decide_eq_false this, Bool.and_false, if_neg (by decide)]
  cases hsp : isSp c with
  | true =>
    rw [one hs (sp hsp)]
    cases t with
    | nil => simp
    | cons d t =>
      cases hd : isSp d with
      | false => simp [hd]
      | true =>
        have hsd : stop.contains d = false := by rcases isSp_iff.mp hd with h | h <;> subst h <;> assumption
        rw [one (c := d) hsd (sp hd)]
        simp [hd]
  | false =>
    have hc' : isCtl c = false := by
      rcases hc with h | h
      · exact h
      · rw [hsp] at h; cases h
    have hcr : c ≠ '\r' := by intro e; subst e; exact absurd hc' (by decide)
    have : oneText u (c :: t) = some ([c], t) := by
      unfold oneText
      rw [lws_none hsp hcr]
      simp [ho, hc']
    rw [one hs this]
    simp

theorem quotedRest_plain {u : Bool} {c : Char} {t : Str} (h1 : c ≠ '"') (h2 : c ≠ '\\')
    (ho : isOctet c = true) (hc : isCtl c = false ∨ isSp c = true) :
    quotedRest u (c :: t) = (quotedRest u t).map fun p => (c :: p.1, p.2) := by
  have hst : (['\\', '"'] : Str).contains c = false := by simp [h1, h2]
  have key := textRun_plain (u := u) (t := t) hst (by decide) (by decide) ho hc
  rw [quotedRest_text u t h1 h2, if_neg (by rw [key]; simp), key]
  simp only
  cases t with
  | nil =>
    rw [textRun, quotedRest_nil]; rfl
  | cons d t =>
    by_cases hd1 : d = '"'
    · have : textRun ['\\', '"'] u (d :: t) = ([], d :: t) := by rw [textRun, if_pos (by simp [hd1])]
      rw [this]; rfl
    · by_cases hd2 : d = '\\'
      · have : textRun ['\\', '"'] u (d :: t) = ([], d :: t) := by rw [textRun, if_pos (by simp [hd2])]
        rw [this]; rfl
      · by_cases he : (textRun ['\\', '"'] u (d :: t)).1 = []
        · have h3 : quotedRest u (d :: t) = .error .valueError := by
            rw [quotedRest_text u t hd1 hd2, if_pos he]
          have h4 : (textRun ['\\', '"'] u (d :: t)).2 = d :: t := by
            have := he
            unfold textRun at this ⊢
            split
            · rfl
            · rename_i hnot
              rw [if_neg hnot] at this
              split
              · rfl
              · rename_i w r hw
                exfalso
                have hw1 : w ≠ [] := by
                  unfold oneText at hw
                  cases hl : lws (d :: t) with
                  | some p =>
                    obtain ⟨w', r'⟩ := p
                    rw [hl] at hw
                    injection hw with hw
                    injection hw with hw hw'
                    rw [← hw]
                    split
                    · simp
                    · unfold lws at hl
                      simp only at hl
                      split at hl
                      · cases hl
                      · rename_i hne
                        injection hl with hl
                        injection hl with hl _
                        rw [← hl]
                        simp [hne]
                  | none =>
                    rw [hl] at hw
                    simp only at hw
                    split at hw
                    · injection hw with hw
                      injection hw with hw _
                      rw [← hw]; simp
                    · cases hw
                split at this
                · rename_i h5; rw [hw] at h5; cases h5
                · rename_i w' r' h5
                  rw [hw] at h5
                  injection h5 with h5
                  injection h5 with h6 h7
                  subst h6
                  simp [hw1] at this
          rw [h4, h3]; rfl
        · rw [quotedRest_text u t hd1 hd2, if_neg he]
          cases quotedRest u (textRun ['\\', '"'] u (d :: t)).2 <;> simp [Except.map]

/-- What `QuoteString` writes between the quotes. -/
def esc (s : Str) : Str := s.flatMap fun c => if escaped c then ['\\', c] else [c]

theorem quoteString_forced (s : Str) : quoteString s true = '"' :: esc s ++ ['"'] := by
  unfold quoteString esc
  simp

theorem escaped_char {c : Char} (h : escaped c = true) : isChar c = true := by
  unfold escaped at h
  simp only [Bool.or_eq_true, decide_eq_true_eq, Bool.and_eq_true] at h
  rcases h with (h | h) | ⟨h, _⟩
  · subst h; decide
  · subst h; decide
  · unfold isCtl at h
    simp only [Bool.or_eq_true, decide_eq_true_eq, beq_iff_eq] at h
    unfold isChar
    rw [decide_eq_true_eq]
    omega

theorem not_escaped {c : Char} (h : escaped c = false) : c ≠ '"' ∧ c ≠ '\\' ∧ (isCtl c = false ∨ isSp c = true) := by
  unfold escaped at h
  simp only [Bool.or_eq_false_iff, decide_eq_false_iff_not, Bool.and_eq_false_iff, Bool.not_eq_false'] at h
  exact ⟨h.1.2, h.1.1, h.2⟩

theorem quotedRest_esc (u : Bool) (s rest : Str) (h : s.all isOctet = true) :
    quotedRest u (esc s ++ '"' :: rest) = .ok (esc s ++ ['"'], rest) := by
  induction s with
  | nil =>
    show quotedRest u ('"' :: rest) = _
    rw [quotedRest_quote]; rfl
  | cons c s ih =>
    simp only [List.all_cons, Bool.and_eq_true] at h
    have ih := ih h.2
    unfold esc
    rw [List.flatMap_cons]
    cases he : escaped c with
    | true =>
      rw [if_pos rfl]
      show quotedRest u ('\\' :: c :: (esc s ++ '"' :: rest)) = _
      rw [quotedRest_pair, if_pos (escaped_char he), ih]
      rfl
    | false =>
      have hn := not_escaped he
      rw [if_neg (by decide)]
      show quotedRest u (c :: (esc s ++ '"' :: rest)) = _
      rw [quotedRest_plain hn.1 hn.2.1 h.1 hn.2.2, ih]
      rfl

theorem words_quoted {ign : Bool} {s rest : Str} {ws : Words} (hs : s.all isOctet = true)
    (h : words ign rest = some (.ok ws)) :
    words ign (quoteString s true ++ rest) = some (.ok (some (quoteString s true) :: ws)) := by
  rw [quoteString_forced]
  have := @words_step ign false ('"' :: esc s ++ ['"'] ++ rest) ('"' :: esc s ++ ['"'] ++ rest) rest
    (some ('"' :: esc s ++ ['"'])) ws (by simp)
    (skipLws_none (lws_none (by decide) (by decide)))
    (by
      show oneWord ('"' :: (esc s ++ ['"'] ++ rest)) = _
      unfold oneWord
      simp only
      rw [if_pos (by decide), if_neg (by decide), if_pos trivial]
      rw [List.append_assoc]
      show (quotedRest true (esc s ++ '"' :: rest)).map _ = _
      rw [quotedRest_esc true s rest hs]
      rfl)
    (by simp only [List.length_append, List.length_cons]; omega) h
  simpa using this

theorem unescape_esc (s : Str) : unescape false (esc s) = s := by
  induction s with
  | nil => rfl
  | cons c s ih =>
    unfold esc
    rw [List.flatMap_cons]
    cases he : escaped c with
    | true =>
      rw [if_pos rfl]
      show unescape false ('\\' :: c :: esc s) = _
      simp [unescape, ih]
    | false =>
      have hn := not_escaped he
      rw [if_neg (by decide)]
      show unescape false (c :: esc s) = _
      simp [unescape, ih, hn.2.1]

theorem esc_plain {s : Str} (h : (esc s).contains '\\' = false) : esc s = s := by
  induction s with
  | nil => rfl
  | cons c s ih =>
    unfold esc at h ⊢
    rw [List.flatMap_cons] at h ⊢
    cases he : escaped c with
    | true => rw [he] at h; simp at h
    | false =>
      rw [he] at h
      simp only [Bool.false_eq_true, if_false, List.singleton_append] at h ⊢
      rw [List.contains_cons, Bool.or_eq_false_iff] at h
      have := ih h.2
      unfold esc at this
      rw [this]

theorem decode_quote (s : Str) : decodeQuoted (quoteString s true) = s := by
  rw [quoteString_forced]
  unfold decodeQuoted
  simp only [List.cons_append, List.drop_succ_cons, List.drop_zero, List.dropLast_concat]
  split
  · exact unescape_esc s
  · rename_i h
    exact esc_plain (Bool.eq_false_iff.mpr h)

theorem quote_token {s : Str} (h : s.all isTok = true) : quoteString s false = s := by
  have hs : ∀ c ∈ s, escaped c = false ∧ isCtl c = false ∧ isSep c = false := by
    intro c hc
    have h1 := tok_not_sp (List.all_eq_true.mp h c hc)
    refine ⟨?_, h1.2.2.1, h1.2.1⟩
    unfold escaped
    rw [h1.2.2.1]
    simp only [Bool.false_and, Bool.or_false, Bool.or_eq_false_iff, decide_eq_false_iff_not]
    constructor <;> intro e <;> subst e <;> exact absurd h1.2.1 (by decide)
  unfold quoteString
  simp only [Bool.false_or]
  rw [if_neg]
  · have : ∀ (l : Str), (∀ c ∈ l, escaped c = false) → l.flatMap (fun c => if escaped c then ['\\', c] else [c]) = l := by
      intro l
      induction l with
      | nil => intro _; rfl
      | cons c l ih =>
        intro hl
        rw [List.flatMap_cons, hl c (by simp), ih (fun d hd => hl d (by simp [hd]))]
        rfl
    exact this s (fun c hc => (hs c hc).1)
  · intro ha
    obtain ⟨c, hc, h2⟩ := List.any_eq_true.mp ha
    have := hs c hc
    rw [this.1, this.2.1, this.2.2] at h2
    cases h2

theorem quote_other {s : Str} (h : s.all isTok = false) : quoteString s false = quoteString s true := by
  unfold quoteString
  simp only [Bool.false_or, Bool.true_or, if_true]
  rw [if_pos]
  obtain ⟨c, hc, h2⟩ := List.all_eq_false.mp h
  refine List.any_eq_true.mpr ⟨c, hc, ?_⟩
  unfold isTok at h2
  cases h1 : isCtl c <;> cases h3 : isSep c <;> simp [h1, h3] at h2 ⊢

end Verif.Http
