import Verif.Props.HttpDate

/-!
# Malformed header values

C138: a header value that is not well-formed is reported as a syntax error.
-/

set_option linter.unusedVariables false
set_option linter.unusedSimpArgs false

namespace Verif.Props

open Verif Verif.Http

/-- The only exception of a reader is a syntax error. -/
def OnlySyntaxErrors {α : Type} (r : Option (Except Fault α)) : Prop := ∀ e, r = some (.error e) → e = .syntaxError

/-- The only exception of a parsing method is a syntax error. -/
def SyntaxOnly {α : Type} (m : P α) : Prop := ∀ ws e, m ws = .error e → e = .syntaxError

theorem tame_pure {α : Type} (a : α) : SyntaxOnly (pure a : P α) := fun ws e h => by cases h

theorem tame_throw {α : Type} : SyntaxOnly (throw .syntaxError : P α) := fun ws e h => by injection h with h; exact h.symm

theorem tame_bind {α β : Type} {m : P α} {f : α → P β} (hm : SyntaxOnly m) (hf : ∀ a, SyntaxOnly (f a)) : SyntaxOnly (m >>= f) := by
  intro ws e h
  rw [bind_run] at h
  cases hx : m ws with
  | error e' => rw [hx] at h; injection h with h; subst h; exact hm ws _ hx
  | ok x => rw [hx] at h; exact hf x.1 x.2 e h

theorem tame_ite {α : Type} {c : Prop} [Decidable c] {m n : P α} (hm : SyntaxOnly m) (hn : SyntaxOnly n) : SyntaxOnly (if c then m else n) := by
  split
  · exact hm
  · exact hn

theorem tame_get : SyntaxOnly (get : P Words) := fun ws e h => by cases h

theorem tame_parseSP : SyntaxOnly parseSP := by
  intro ws e h
  unfold parseSP at h
  split at h <;> cases h

theorem tame_requireToken : SyntaxOnly requireToken := by
  intro ws e h
  unfold requireToken at h
  split at h
  · cases h
  · injection h with h; exact h.symm

theorem tame_parseToken : SyntaxOnly parseToken := by
  intro ws e h
  unfold parseToken at h
  split at h <;> cases h

theorem tame_requireInteger : SyntaxOnly requireInteger := by
  intro ws e h
  unfold requireInteger at h
  split at h
  · cases h
  · injection h with h; exact h.symm

theorem tame_requireSeparator (c : Char) : SyntaxOnly (requireSeparator c) := by
  intro ws e h
  unfold requireSeparator at h
  split at h
  · cases h
  · injection h with h; exact h.symm

theorem tame_parseSeparator (c : Char) : SyntaxOnly (parseSeparator c) := by
  intro ws e h
  unfold parseSeparator at h
  split at h <;> cases h

theorem tame_parseQuotedString : SyntaxOnly parseQuotedString := by
  intro ws e h
  unfold parseQuotedString at h
  split at h <;> cases h

theorem tame_requireEnd : SyntaxOnly requireEnd := by
  intro ws e h
  unfold requireEnd at h
  split at h
  · injection h with h; exact h.symm
  · cases h

theorem tame_parseProduction {α : Type} {m : P α} (hm : SyntaxOnly m) : SyntaxOnly (parseProduction m) := by
  intro ws e h
  unfold parseProduction at h
  split at h
  · cases h
  · cases h
  · rename_i e' h1 h2
    injection h with h
    subst h
    exact hm ws _ h2

theorem tame_requireQuality (up : Str → Bool) : SyntaxOnly (requireQuality up) := by
  intro ws e h
  unfold requireQuality at h
  split at h
  · split at h
    · cases h
    · injection h with h; exact h.symm
  · injection h with h; exact h.symm

theorem tame_requireName (r : Option Nat) : SyntaxOnly (requireName r) := by
  intro ws e h
  unfold requireName at h
  split at h
  · cases h
  · injection h with h; exact h.symm

/-- One step of the search for the exceptions of a method. -/
macro "tame" : tactic => `(tactic| first
  | exact tame_pure _ | exact tame_throw | exact tame_get | exact tame_parseSP | exact tame_requireToken
  | exact tame_parseToken | exact tame_requireInteger | exact tame_requireSeparator _ | exact tame_parseSeparator _
  | exact tame_parseQuotedString | exact tame_requireEnd | exact tame_requireQuality _ | exact tame_requireName _
  | assumption
  | (refine tame_ite ?_ ?_) | (refine tame_bind ?_ (fun _ => ?_)) | split | dsimp only)

theorem tame_oneParam (ia : Bool) (qm : Option Str) : SyntaxOnly (oneParam ia qm) := by
  unfold oneParam
  repeat tame

theorem tame_paramLoop (ia : Bool) (qm : Option Str) (n : Nat) (ps : Params) : SyntaxOnly (paramLoop ia qm n ps) := by
  induction n generalizing ps with
  | zero => exact tame_pure _
  | succ n ih =>
    intro ws e h
    unfold paramLoop at h
    split at h
    · cases h
    · split at h
      · exact ih _ _ _ h
      · cases h
      · rename_i e' h1 h2
        injection h with h
        subst h
        exact tame_oneParam _ _ _ _ h2

theorem tame_parseParameters (ia : Bool) (qm : Option Str) : SyntaxOnly (parseParameters ia qm) := by
  unfold parseParameters
  exact tame_bind tame_parseSP fun _ => tame_bind tame_get fun _ => tame_paramLoop _ _ _ _

theorem tame_requireMediaType (qm : Option Str) : SyntaxOnly (requireMediaType qm) := by
  have := tame_parseParameters false qm
  unfold requireMediaType
  repeat tame

theorem tame_optQuality (up : Str → Bool) : SyntaxOnly (optQuality up) := by
  unfold optQuality
  repeat tame

theorem tame_requireAcceptItem (up : Str → Bool) : SyntaxOnly (requireAcceptItem up) := by
  have h1 := tame_parseParameters true none
  have h2 := tame_requireMediaType (some ['q'])
  have h3 := tame_optQuality up
  unfold requireAcceptItem
  repeat tame

theorem tame_itemLoop {α : Type} {m : P α} (hm : SyntaxOnly m) (n : Nat) : SyntaxOnly (itemLoop m n) := by
  induction n with
  | zero => exact tame_pure _
  | succ n ih =>
    have hp := tame_parseProduction hm
    intro ws e h
    unfold itemLoop at h
    split at h
    · cases h
    · revert h
      generalize hx : (parseProduction m >>= _) = x
      intro h
      refine (?_ : SyntaxOnly x) ws e h
      subst hx
      repeat tame

theorem tame_requireAcceptList (up : Str → Bool) : SyntaxOnly (requireAcceptList up) := by
  have := fun n => tame_itemLoop (tame_requireAcceptItem up) n
  unfold requireAcceptList
  refine tame_bind tame_parseSP fun _ => tame_bind tame_get fun ws => tame_bind (this _) fun _ => ?_
  repeat tame

theorem tame_requireAcceptToken (up : Str → Bool) : SyntaxOnly (requireAcceptToken up) := by
  have h3 := tame_optQuality up
  unfold requireAcceptToken
  repeat tame

theorem tame_requireLanguageTag : SyntaxOnly requireLanguageTag := by
  unfold requireLanguageTag
  refine tame_bind tame_parseSP fun _ => tame_bind tame_requireToken fun t => tame_bind tame_parseSP fun _ => ?_
  cases h : Py.split '-' t with
  | nil => exact absurd h (CP.split_ne_nil '-' t)
  | cons a l => exact tame_pure _

theorem tame_requireProduct : SyntaxOnly requireProduct := by
  unfold requireProduct
  repeat tame

theorem tame_productLoop (n : Nat) : SyntaxOnly (productLoop n) := by
  have hp := tame_requireProduct
  induction n with
  | zero => exact tame_pure _
  | succ n ih =>
    intro ws e h
    unfold productLoop at h
    split at h
    · cases h
    · revert h
      generalize hx : (requireProduct >>= _) = x
      intro h
      refine (?_ : SyntaxOnly x) ws e h
      subst hx
      repeat tame

/-- Text without brackets and quotes is split in words without an exception. -/
theorem words_plain (ign : Bool) (s : Str) (h1 : '(' ∉ s) (h2 : '"' ∉ s) (e : Fault) : words ign s ≠ some (.error e) := by
  unfold words
  generalize s.length + 1 = n
  have skip_mem : ∀ s c, c ∈ (skipLws s).2 → c ∈ s := by
    intro s
    induction s using skipLws.induct with
    | case1 s hn => intro c hc; rw [skipLws_none hn] at hc; exact hc
    | case2 s w r hs hlt ih =>
      intro c hc
      rw [skipLws_some hs] at hc
      have h3 := ih c hc
      unfold lws at hs
      dsimp only at hs
      split at hs
      · cases hs
      · injection hs with hs
        injection hs with _ hs
        subst hs
        have h4 := (List.dropWhile_suffix _).mem h3
        unfold crlf at h4
        split at h4
        · exact List.mem_cons_of_mem _ (List.mem_cons_of_mem _ h4)
        · exact h4
  induction n generalizing s with
  | zero => cases s <;> (intro h; cases h)
  | succ n ih =>
    cases s with
    | nil => intro h; cases h
    | cons c t =>
      rw [wordLoop_cons]
      have hsub := skip_mem (c :: t)
      generalize (skipLws (c :: t)).2 = u at hsub
      generalize (skipLws (c :: t)).1 = b
      have hw : ∃ w r, oneWord u = .ok (w, r) ∧ ∀ d ∈ r, d ∈ u := by
        cases u with
        | nil => exact ⟨none, [], rfl, by simp⟩
        | cons d v =>
          have hd1 : d ≠ '(' := fun e => h1 (hsub _ (by simp [e]))
          have hd2 : d ≠ '"' := fun e => h2 (hsub _ (by simp [e]))
          unfold oneWord
          dsimp only
          split
          · exact ⟨_, _, rfl, fun x hx => List.mem_cons_of_mem _ hx⟩
          · split
            · exact ⟨_, _, rfl, fun x hx => (List.dropWhile_suffix _).mem hx⟩
            · exact ⟨_, _, rfl, fun x hx => hx⟩
      obtain ⟨w, r, hw, hr⟩ := hw
      rw [hw]
      dsimp only
      intro h
      cases hl : wordLoop ign n r with
      | none => rw [hl] at h; cases h
      | some x =>
        cases x with
        | error e' => exact ih r (fun hc => h1 (hsub _ (hr _ hc))) (fun hc => h2 (hsub _ (hr _ hc))) (by rw [hl] at h ⊢; injection h with h; injection h with h; rw [h])
        | ok l => rw [hl] at h; cases h

theorem reader_tame {α : Type} {m : P α} (hm : SyntaxOnly m) (ign : Bool) (s : Str) (e : Fault)
    (h : fromString ign m s = some (.error e)) : e = .syntaxError ∨ words ign s = some (.error e) := by
  unfold fromString at h
  cases hw : words ign s with
  | none => rw [hw] at h; cases h
  | some r =>
    rw [hw] at h
    cases r with
    | error e' => right; injection h with h; injection h with h; rw [h]
    | ok ws =>
      left
      injection h with h
      cases hx : m ws with
      | error e' =>
        change (m ws).map _ = _ at h
        rw [hx] at h
        injection h with h
        subst h
        exact hm _ _ hx
      | ok x =>
        change (m ws).map _ = _ at h
        rw [hx] at h
        cases h

theorem reader_plain {α : Type} {m : P α} (hm : SyntaxOnly m) (ign : Bool) {s : Str} (h1 : '(' ∉ s) (h2 : '"' ∉ s) :
    OnlySyntaxErrors (fromString ign m s) := by
  intro e h
  rcases reader_tame hm ign s e h with h | h
  · exact h
  · exact absurd h (words_plain ign s h1 h2 e)

/-- **C138 (partial).**  The readers of media types, Accept headers, products, languages, entity tags and byte ranges
report every text without brackets and quotes that they cannot read as a syntax error, and negotiation of content never
fails for one.  Missing: brackets and quotes, versions and dates, see `errors_refuted`. -/
theorem errors_partial (up : Str → Bool) (sort : List AcceptToken → List AcceptToken) (s : Str) (h1 : '(' ∉ s)
    (h2 : '"' ∉ s) :
    OnlySyntaxErrors (mediaTypeFromString s) ∧ OnlySyntaxErrors (acceptFromString up s) ∧
    OnlySyntaxErrors (tokensFromString up sort s) ∧ OnlySyntaxErrors (productFromString s) ∧
    OnlySyntaxErrors (productsFromString s) ∧ OnlySyntaxErrors (languageFromString s) ∧
    OnlySyntaxErrors (entityTagFromString s) ∧ OnlySyntaxErrors (contentRangeFromString s) ∧
    ∀ default types e, negotiate up default (some s) types ≠ some (.error e) := by
  have hacc : OnlySyntaxErrors (acceptFromString up s) := by
    refine reader_plain ?_ true h1 h2
    have := tame_requireAcceptList up
    repeat tame
  refine ⟨?_, hacc, ?_, ?_, ?_, ?_, ?_, ?_, ?_⟩
  · refine reader_plain ?_ false h1 h2
    have := tame_requireMediaType none
    repeat tame
  · refine reader_plain ?_ true h1 h2
    refine tame_bind tame_parseSP fun _ => tame_bind tame_get fun ws =>
      tame_bind (tame_itemLoop (tame_requireAcceptToken up) _) fun _ => ?_
    repeat tame
  · refine reader_plain ?_ true h1 h2
    have := tame_requireProduct
    repeat tame
  · refine reader_plain ?_ true h1 h2
    refine tame_bind tame_parseSP fun _ => tame_bind tame_get fun ws => tame_bind (tame_productLoop _) fun _ => ?_
    repeat tame
  · refine reader_plain ?_ false h1 h2
    have := tame_requireLanguageTag
    repeat tame
  · refine reader_plain ?_ true h1 h2
    repeat tame
  · refine reader_plain ?_ true h1 h2
    repeat tame
  · intro default types e h
    unfold negotiate at h
    dsimp only at h
    cases ha : acceptFromString up s with
    | none => rw [ha] at h; cases h
    | some r =>
      rw [ha] at h
      cases r with
      | ok l => cases h
      | error e' =>
        have := hacc e' ha
        subst this
        cases h

/-- **C138 (partial).**  A date without brackets and quotes that cannot be read is a syntax error or a date error. -/
theorem date_errors_partial (s : Str) (h1 : '(' ∉ s) (h2 : '"' ∉ s) (e : Fault)
    (h : fullDateFromString s = some (.error e)) : e = .syntaxError ∨ e = .dateError := by
  have mild_bind : ∀ {α β : Type} {m : P α} {f : α → P β}, SyntaxOnly m →
      (∀ a ws e, f a ws = .error e → e = .syntaxError ∨ e = .dateError) →
      ∀ ws e, (m >>= f) ws = .error e → e = .syntaxError ∨ e = .dateError := by
    intro α β m f hm hf ws e h
    rw [bind_run] at h
    cases hx : m ws with
    | error e' => rw [hx] at h; injection h with h; subst h; exact .inl (hm ws _ hx)
    | ok x => rw [hx] at h; exact hf x.1 x.2 e h
  have hday : SyntaxOnly requireDayMonth := by
    unfold requireDayMonth
    repeat tame
  have hyear : ∀ y, SyntaxOnly (requireYear y) := by
    intro y
    unfold requireYear
    split <;> repeat tame
  have hreq : ∀ ws e, requireFullDate ws = .error e → e = .syntaxError ∨ e = .dateError := by
    unfold requireFullDate
    refine mild_bind tame_parseSP fun _ => mild_bind tame_requireToken fun _ => mild_bind (tame_requireName _) fun _ =>
      mild_bind tame_parseSP fun _ => mild_bind hday fun _ => mild_bind tame_parseSP fun _ =>
      mild_bind tame_requireInteger fun _ => mild_bind (tame_requireSeparator _) fun _ =>
      mild_bind tame_requireInteger fun _ => mild_bind (tame_requireSeparator _) fun _ =>
      mild_bind tame_requireInteger fun _ => mild_bind tame_parseSP fun _ => mild_bind (hyear _) fun _ => ?_
    intro ws e h
    dsimp only at h
    generalize hx : makeFullDate _ _ _ _ _ _ _ _ = x at h
    cases x with
    | ok p => cases h
    | error e' =>
      injection h with h
      subst h
      unfold makeFullDate at hx
      split at hx
      · injection hx with hx; exact .inr hx.symm
      · split at hx
        · injection hx with hx; exact .inl hx.symm
        · cases hx
  unfold fullDateFromString fromString at h
  cases hw : words true s with
  | none => rw [hw] at h; cases h
  | some r =>
    cases r with
    | error e' => exact absurd hw (words_plain true s h1 h2 e')
    | ok ws =>
      rw [hw] at h
      injection h with h
      change ((requireFullDate >>= _) ws).map _ = _ at h
      rw [bind_run] at h
      cases hx : requireFullDate ws with
      | error e' =>
        rw [hx] at h
        injection h with h
        subst h
        exact hreq ws _ hx
      | ok x =>
        rw [hx] at h
        left
        have ht : SyntaxOnly (parseSP >>= fun _ => requireEnd >>= fun _ => (pure x.1 : P Cal.TimePoint)) := by repeat tame
        change ((parseSP >>= fun _ => requireEnd >>= fun _ => (pure x.1 : P Cal.TimePoint)) x.2).map _ = _ at h
        cases hy : (parseSP >>= fun _ => requireEnd >>= fun _ => (pure x.1 : P Cal.TimePoint)) x.2 with
        | ok y => rw [hy] at h; cases h
        | error e' =>
          rw [hy] at h
          injection h with h
          subst h
          exact ht _ _ hy

/-- **C138 refuted.**  A bracket that is not closed is a `ValueError`, a backslash at the end of a quoted string a
`TypeError`, in every header value and also in the negotiation of content; a version that is none a `NameError`; a date
that does not exist a `DateTimeError`. -/
theorem errors_refuted :
    let up : Str → Bool := fun _ => false
    mediaTypeFromString "text/plain (".toList = some (.error .valueError) ∧
    acceptFromString up "*/*; a=\"\\".toList = some (.error .typeError) ∧
    negotiate up [] (some "(".toList) [] = some (.error .valueError) ∧
    negotiate up [] (some "\"\\".toList) [] = some (.error .typeError) ∧
    versionFromString "HTTP".toList = some (.error .nameError) ∧
    fullDateFromString "Wed, 31 Feb 1999 00:00:00 GMT".toList = some (.error .dateError) := by decide +kernel

/-- The hypotheses of `errors_partial` are met by texts that cannot be read, and its conclusion is not empty: they are
syntax errors. -/
theorem errors_hypotheses :
    let up : Str → Bool := fun _ => false
    '(' ∉ "text/; q=x".toList ∧ '"' ∉ "text/; q=x".toList ∧
    mediaTypeFromString "text/; q=x".toList = some (.error .syntaxError) ∧
    acceptFromString up "text/; q=x".toList = some (.error .syntaxError) ∧
    tokensFromString up id "text/; q=x".toList = some (.error .syntaxError) ∧
    contentRangeFromString "text/; q=x".toList = some (.error .syntaxError) ∧
    fullDateFromString "text/; q=x".toList = some (.error .syntaxError) := by decide +kernel

end Verif.Props
