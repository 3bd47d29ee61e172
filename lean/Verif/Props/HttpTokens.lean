import Verif.Props.HttpAccept

/-!
# Negotiation of character sets, encodings and languages

C133: the token or language selected is the first of the best.
-/

set_option linter.unusedVariables false
set_option linter.unusedSimpArgs false

namespace Verif.Props

open Verif Verif.Http

/-! ## The specification -/

/-- An item names a token, without regard to case. -/
def Names (i : AcceptToken) (t : Str) : Prop := Py.lower i.token = Py.lower t

/-- The quality of a token: the greatest of the items that name it; else the greatest of the wildcards; else what is the
default. -/
def TokenQuality (items : List AcceptToken) (t : Str) (default q : Nat) : Prop :=
  (∃ i ∈ items, Names i t ∧ i.q = q ∧ ∀ j ∈ items, Names j t → j.q ≤ q) ∨
  (∀ i ∈ items, ¬ Names i t) ∧
    ((∃ i ∈ items, i.token = ['*'] ∧ i.q = q ∧ ∀ j ∈ items, j.token = ['*'] → j.q ≤ q) ∨
     (∀ i ∈ items, i.token ≠ ['*']) ∧ q = default)

/-! ## Tokens -/

theorem lower_star (s : Str) : Py.lower s = ['*'] ↔ s = ['*'] := by
  constructor
  · intro h
    unfold Py.lower at h
    match s, h with
    | [c], h =>
      simp only [List.map_cons, List.map_nil, List.cons.injEq, and_true] at h
      unfold Py.lowerChar at h
      split at h
      · rename_i hc
        exfalso
        have h2 : (Char.ofNat (c.toNat + 32)).toNat = c.toNat + 32 := by
          have hv : (c.toNat + 32).isValidChar := by unfold Nat.isValidChar; omega
          unfold Char.ofNat
          rw [dif_pos hv]
          simp only [Char.toNat, Char.ofNatAux]
          show (UInt32.ofNatLT _ _).toNat = _
          rw [UInt32.toNat_ofNatLT]
        rw [h] at h2
        have : ('*' : Char).toNat = 42 := by decide
        omega
      · rw [h]
    | [], h => cases h
    | a :: b :: l, h => simp at h
  · rintro rfl; decide

theorem cmpToken_eq (a b : AcceptToken) :
    cmpToken a b = (compareTypes a.token b.token).then (compare b.q a.q) := by
  unfold cmpToken compareTypes
  by_cases ha : a.token = ['*'] <;> by_cases hb : b.token = ['*']
  · rw [if_pos ha, if_pos hb, if_pos ha, if_pos hb]; rfl
  · rw [if_pos ha, if_neg hb, if_pos ha, if_neg hb]; rfl
  · rw [if_neg ha, if_pos hb, if_neg ha, if_pos hb]; rfl
  · rw [if_neg ha, if_neg hb, if_neg ha, if_neg hb]

instance : Std.TransCmp cmpToken := by
  have h1 : Std.TransCmp fun a b : AcceptToken => compareTypes a.token b.token := trans_comap _
  have h3 : Std.TransCmp fun a b : Nat => compare b a := trans_flip
  have h3 : Std.TransCmp fun a b : AcceptToken => compare b.q a.q :=
    trans_comap (cmp := fun a b : Nat => compare b a) fun a : AcceptToken => a.q
  have e : cmpToken = fun a b => (compareTypes a.token b.token).then (compare b.q a.q) := by
    funext a b; exact cmpToken_eq a b
  rw [e]
  exact @trans_then _ _ _ h1 h3

/-- The quality of the item that decides. -/
def itemQuality (items : List AcceptToken) (default : Nat) (t : Str) : Nat :=
  match tokenItem items t with
  | some i => i.q
  | none => default

theorem itemQuality_is (items : List AcceptToken) (t : Str) (default : Nat) :
    TokenQuality items t default (itemQuality (tokenList items) default t) := by
  have h := find_sorted (cmp := cmpToken)
    (p := fun i => Py.lower i.token = Py.lower t || Py.lower i.token = ['*']) (items := items)
  unfold itemQuality tokenItem tokenList
  split at h
  · rename_i hf
    rw [hf]
    refine .inr ⟨fun i hi hn => ?_, .inr ⟨fun i hi hs => ?_, rfl⟩⟩
    · have := h i hi
      rw [show Py.lower i.token = Py.lower t from hn] at this
      simp at this
    · have := h i hi
      rw [(lower_star _).mpr hs] at this
      simp at this
  · rename_i i hf
    rw [hf]
    obtain ⟨h1, h2, h3⟩ := h
    dsimp only
    have hle : ∀ j ∈ items, (Py.lower j.token = Py.lower t ∨ j.token = ['*']) →
        ((compareTypes i.token j.token).then (compare j.q i.q)).isLE = true := by
      intro j hj hc
      rw [← cmpToken_eq]
      refine h3 j hj ?_
      simp only [Bool.or_eq_true, decide_eq_true_eq]
      exact hc.imp id (lower_star _).mpr
    by_cases hst : i.token = ['*']
    · by_cases htt : Py.lower t = ['*']
      · refine .inl ⟨i, h1, ?_, rfl, fun j hj hn => ?_⟩
        · show Py.lower i.token = Py.lower t; rw [htt, hst]; decide
        · have hj2 : j.token = ['*'] := (lower_star _).mp (Eq.trans hn htt)
          have := hle j hj (.inr hj2)
          rw [hst, hj2] at this
          exact Nat.isLE_compare.mp this
      · refine .inr ⟨fun j hj hn => ?_, .inl ⟨i, h1, hst, rfl, fun j hj hs => ?_⟩⟩
        · have hj2 : j.token ≠ ['*'] := fun e => htt (by rw [← show Py.lower j.token = Py.lower t from hn, e]; decide)
          have := hle j hj (.inl hn)
          unfold compareTypes at this
          rw [if_pos hst, if_neg hj2] at this
          cases this
        · have := hle j hj (.inr hs)
          rw [hst, hs] at this
          exact Nat.isLE_compare.mp this
    · have hn : Py.lower i.token = Py.lower t := by
        simp only [Bool.or_eq_true, decide_eq_true_eq] at h2
        exact h2.resolve_right fun e => hst ((lower_star _).mp e)
      refine .inl ⟨i, h1, hn, rfl, fun j hj hjn => ?_⟩
      have := hle j hj (.inl hjn)
      have hj2 : j.token ≠ ['*'] := fun e => hst ((lower_star _).mp (hn.trans ((show Py.lower j.token = Py.lower t from hjn).symm.trans (by rw [e]; decide))))
      unfold compareTypes at this
      rw [if_neg hst, if_neg hj2, show Py.lower i.token = Py.lower j.token from hn.trans (Eq.symm hjn),
        Std.ReflCmp.compare_self (cmp := compare)] at this
      exact Nat.isLE_compare.mp this

/-- The specification gives each token one quality. -/
theorem tokenQuality_unique {items : List AcceptToken} {t : Str} {d a b : Nat} (ha : TokenQuality items t d a)
    (hb : TokenQuality items t d b) : a = b := by
  rcases ha with ⟨i, hi, hn, rfl, hm⟩ | ⟨hn, ha⟩
  · rcases hb with ⟨j, hj, hn', rfl, hm'⟩ | ⟨hn', _⟩
    · have := hm j hj hn'; have := hm' i hi hn; omega
    · exact (hn' i hi hn).elim
  · rcases hb with ⟨j, hj, hn', rfl, hm'⟩ | ⟨_, hb⟩
    · exact (hn j hj hn').elim
    · rcases ha with ⟨i, hi, hs, rfl, hm⟩ | ⟨hs, rfl⟩
      · rcases hb with ⟨j, hj, hs', rfl, hm'⟩ | ⟨hs', _⟩
        · have := hm j hj hs'; have := hm' i hi hs; omega
        · exact (hs' i hi hs).elim
      · rcases hb with ⟨j, hj, hs', rfl, hm'⟩ | ⟨_, rfl⟩
        · exact (hs j hj hs').elim
        · rfl

theorem foldl_congr_mem {α β : Type} {f g : β → α → β} {l : List α} (h : ∀ b, ∀ x ∈ l, f b x = g b x) (b : β) :
    l.foldl f b = l.foldl g b := by
  induction l generalizing b with
  | nil => rfl
  | cons x l ih =>
    rw [List.foldl_cons, List.foldl_cons, h b x (by simp)]
    exact ih (fun b y hy => h b y (by simp [hy])) _

/-! ## C133 -/

/-- **C133.**  Of the tokens on offer the one selected is the first of the best; a token no item names and no wildcard
covers is not acceptable.  Every token has one quality. -/
theorem token_exact (items : List AcceptToken) (tokens : List Str) (quality : Str → Nat)
    (hq : ∀ t ∈ tokens, TokenQuality items t 0 (quality t)) :
    IsBest quality tokens (selectToken (tokenList items) tokens) ∧
    ∀ t, ∃ q, TokenQuality items t 0 q ∧ ∀ q', TokenQuality items t 0 q' → q' = q := by
  refine ⟨?_, fun t => ⟨_, itemQuality_is items t 0, fun q' h => tokenQuality_unique h (itemQuality_is items t 0)⟩⟩
  unfold selectToken
  rw [foldl_congr_mem (g := fun b t => better b t (quality t))]
  · exact select_best quality tokens
  · intro b t ht
    rw [tokenQuality_unique (hq t ht) (itemQuality_is items t 0)]
    unfold itemQuality
    cases tokenItem (tokenList items) t with
    | some i => rfl
    | none => unfold better; dsimp only; rw [if_neg (by omega)]

/-- **C133.**  Of the character sets on offer the one selected is the first of the best, where ISO-8859-1 has the greatest
quality unless it is named or a wildcard covers it. -/
theorem charset_exact (items : List AcceptToken) (tokens : List Str) (quality : Str → Nat)
    (hq : ∀ t ∈ tokens, TokenQuality items t (if Py.lower t = "iso-8859-1".toList then 1000 else 0) (quality t)) :
    IsBest quality tokens (selectCharset (tokenList items) tokens) := by
  unfold selectCharset
  rw [foldl_congr_mem (g := fun b t => better b t (quality t))]
  · exact select_best quality tokens
  · intro b t ht
    rw [tokenQuality_unique (hq t ht) (itemQuality_is items t _)]
    unfold itemQuality
    have hl : latin1 = "iso-8859-1".toList := by decide
    cases tokenItem (tokenList items) t with
    | some i => rfl
    | none =>
      dsimp only
      rw [hl]
      by_cases h : Py.lower t = "iso-8859-1".toList
      · rw [if_pos h, if_pos h]
      · rw [if_neg h, if_neg h]; unfold better; rw [if_neg (by omega)]

/-- Twice the quality of an encoding; the one called identity, unless it is named or covered, is just acceptable. -/
def EncodingRank (items : List AcceptToken) (t : Str) (r : Nat) : Prop :=
  (∃ q, TokenQuality items t 0 q ∧ r = 2 * q ∧ ¬ (Py.lower t = "identity".toList ∧ ∀ i ∈ items, ¬ Names i t ∧ i.token ≠ ['*'])) ∨
  Py.lower t = "identity".toList ∧ (∀ i ∈ items, ¬ Names i t ∧ i.token ≠ ['*']) ∧ r = 1

theorem tokenItem_none {items : List AcceptToken} {t : Str} :
    tokenItem (tokenList items) t = none ↔ ∀ i ∈ items, ¬ Names i t ∧ i.token ≠ ['*'] := by
  have hperm := Paging.stableSort_perm (le := fun a b => (cmpToken a b).isLE) items
  unfold tokenItem tokenList
  rw [List.find?_eq_none]
  constructor
  · intro h i hi
    have := h i (hperm.mem_iff.mpr hi)
    simp only [Bool.or_eq_true, decide_eq_true_eq, not_or] at this
    exact ⟨this.1, fun e => this.2 ((lower_star _).mpr e)⟩
  · intro h i hi
    have := h i (hperm.mem_iff.mp hi)
    simp only [Bool.or_eq_true, decide_eq_true_eq, not_or]
    exact ⟨this.1, fun e => this.2 ((lower_star _).mp e)⟩

/-- Selection with a rank of 1 for candidates that are taken without a quality. -/
theorem fold_encoding {rank : Str → Nat} {f : Option Str × Nat → Str → Option Str × Nat} {l : List Str}
    (hid : l.Pairwise fun a b => ¬ (rank a = 1 ∧ rank b = 1))
    (hf : ∀ b, ∀ t ∈ l, (rank t = 1 ∧ f b t = if b.2 = 0 then (some t, b.2) else b) ∨
      ∃ q, rank t = 2 * q ∧ f b t = better b t q)
    (done : List Str) (hd : ∀ a ∈ done, ∀ b ∈ l, ¬ (rank a = 1 ∧ rank b = 1)) (best : Option Str × Nat)
    (h : IsBest rank done best.1 ∧
      match best.1 with
      | none => best.2 = 0
      | some x => rank x = 2 * best.2 ∨ rank x = 1 ∧ best.2 = 0) :
    IsBest rank (done ++ l) (l.foldl f best).1 := by
  induction l generalizing done best with
  | nil => rw [List.append_nil]; exact h.1
  | cons x l ih =>
    have hx := List.pairwise_cons.mp hid
    have e : done ++ x :: l = (done ++ [x]) ++ l := by simp
    rw [e, List.foldl_cons]
    refine ih hx.2 (fun b t ht => hf b t (by simp [ht])) _ ?_ _ ?_
    · intro a ha b hb
      rcases List.mem_append.mp ha with ha | ha
      · exact hd a ha b (by simp [hb])
      · rw [List.mem_singleton] at ha; subst ha; exact hx.1 b hb
    obtain ⟨b, bq⟩ := best
    dsimp only at h ⊢
    have take : rank x > 0 → (∀ y ∈ done, rank y < rank x) → IsBest rank (done ++ [x]) (some x) :=
      fun h0 h1 => ⟨done, [], rfl, h0, h1, by simp⟩
    have keep : (∀ y, b = some y → rank x ≤ rank y) → (b = none → rank x = 0) → IsBest rank (done ++ [x]) b := by
      intro h0 h1
      cases b with
      | none =>
        intro y hy
        rcases List.mem_append.mp hy with hy | hy
        · exact h.1 y hy
        · rw [List.mem_singleton] at hy; subst hy; exact h1 rfl
      | some z =>
        obtain ⟨⟨l1, l2, e, h2, h3, h4⟩, _⟩ := h
        refine ⟨l1, l2 ++ [x], by rw [e]; simp, h2, h3, ?_⟩
        intro y hy
        rcases List.mem_append.mp hy with hy | hy
        · exact h4 y hy
        · rw [List.mem_singleton] at hy; subst hy; exact h0 z rfl
    have top : ∀ y ∈ done, ∀ n, (∀ z, b = some z → rank z < n) → (0 < n) → rank y < n := by
      intro y hy n h0 hn
      cases b with
      | none => rw [h.1 y hy]; exact hn
      | some z =>
        obtain ⟨⟨l1, l2, e, h2, h3, h4⟩, _⟩ := h
        have hz := h0 z rfl
        subst e
        rcases List.mem_append.mp hy with hy | hy
        · have := h3 y hy; omega
        · rcases List.mem_cons.mp hy with rfl | hy
          · exact hz
          · have := h4 y hy; omega
    rcases hf (b, bq) x (by simp) with ⟨hr, hfx⟩ | ⟨q, hr, hfx⟩
    · rw [hfx]
      dsimp only
      by_cases h0 : bq = 0
      · rw [if_pos h0]
        refine ⟨take (by omega) (fun y hy => ?_), .inr ⟨hr, h0⟩⟩
        rw [hr]
        refine top y hy 1 (fun z hz => ?_) (by omega)
        subst hz
        have hmem : z ∈ done := by
          obtain ⟨⟨l1, l2, e, _⟩, _⟩ := h
          rw [e]; simp
        have h2 := hd z hmem x (by simp)
        rcases h.2 with h3 | h3
        · omega
        · exact (h2 ⟨h3.1, hr⟩).elim
      · rw [if_neg h0]
        refine ⟨keep (fun y hy => ?_) (fun hn => ?_), h.2⟩
        · subst hy
          rcases h.2 with h3 | h3 <;> omega
        · subst hn
          exact (h0 h.2).elim
    · rw [hfx]
      unfold better
      dsimp only
      by_cases hq : q > bq
      · rw [if_pos hq]
        refine ⟨take (by omega) (fun y hy => ?_), .inl hr⟩
        refine top y hy _ (fun z hz => ?_) (by omega)
        subst hz
        rcases h.2 with h3 | h3 <;> omega
      · rw [if_neg hq]
        refine ⟨keep (fun y hy => ?_) (fun hn => ?_), h.2⟩
        · subst hy
          rcases h.2 with h3 | h3 <;> omega
        · subst hn
          have : bq = 0 := h.2
          omega

/-- **C133 (partial).**  Of the encodings on offer the one selected is the first of the best; identity, unless it is
named or a wildcard covers it, is acceptable, but less than any encoding with a quality.  Missing: two candidates that
are both called identity, see `encoding_refuted`. -/
theorem encoding_partial (items : List AcceptToken) (tokens : List Str) (rank : Str → Nat)
    (h1 : tokens.Pairwise fun a b => ¬ (Py.lower a = "identity".toList ∧ Py.lower b = "identity".toList))
    (hq : ∀ t ∈ tokens, EncodingRank items t (rank t)) :
    IsBest rank tokens (selectEncoding (tokenList items) tokens) := by
  have hid : identity = "identity".toList := by decide
  unfold selectEncoding
  have := fold_encoding (rank := rank) (l := tokens) (f := fun best t =>
    match tokenItem (tokenList items) t with
    | some i => better best t i.q
    | none => if Py.lower t = identity ∧ best.2 = 0 then (some t, best.2) else best) ?_ ?_ []
    (fun a ha => (List.not_mem_nil ha).elim) (none, 0) ⟨fun x hx => (List.not_mem_nil hx).elim, rfl⟩
  · exact this
  · refine List.Pairwise.imp_of_mem ?_ h1
    intro a b ha hb hab hr
    have one : ∀ t ∈ tokens, rank t = 1 → Py.lower t = "identity".toList := by
      intro t ht e
      rcases hq t ht with ⟨q, _, h2, _⟩ | h2
      · omega
      · exact h2.1
    exact hab ⟨one a ha hr.1, one b hb hr.2⟩
  · intro b t ht
    have hi := itemQuality_is items t 0
    unfold itemQuality at hi
    rcases hq t ht with ⟨q, hq1, hq2, hq3⟩ | ⟨hl, hn, hr⟩
    · refine .inr ⟨q, hq2, ?_⟩
      have e := tokenQuality_unique hq1 hi
      cases htk : tokenItem (tokenList items) t with
      | some i => rw [htk] at e; dsimp only at e ⊢; rw [e]
      | none =>
        rw [htk] at e
        dsimp only at e ⊢
        have : ¬ (Py.lower t = identity ∧ b.2 = 0) := by
          rw [hid]
          exact fun h => hq3 ⟨h.1, tokenItem_none.mp htk⟩
        rw [if_neg this, e]
        unfold better
        rw [if_neg (by omega)]
    · refine .inl ⟨hr, ?_⟩
      rw [tokenItem_none.mpr hn, hid]
      dsimp only
      by_cases h0 : b.2 = 0
      · rw [if_pos ⟨hl, h0⟩, if_pos h0]
      · rw [if_neg (fun h => h0 h.2), if_neg h0]

/-- **C133 refuted.**  Of two candidates called identity the last is returned, not the first. -/
theorem encoding_refuted :
    ¬ (∀ (items : List AcceptToken) (tokens : List Str) (rank : Str → Nat),
      (∀ t ∈ tokens, EncodingRank items t (rank t)) → IsBest rank tokens (selectEncoding (tokenList items) tokens)) := by
  intro h
  have h1 : ∀ t ∈ ["identity".toList, "Identity".toList], EncodingRank [] t 1 := by
    intro t ht
    refine .inr ⟨?_, fun i hi => (List.not_mem_nil hi).elim, rfl⟩
    simp only [List.mem_cons, List.not_mem_nil, or_false] at ht
    rcases ht with rfl | rfl <;> decide
  have h2 := h [] ["identity".toList, "Identity".toList] (fun _ => 1) h1
  have h3 : selectEncoding (tokenList []) ["identity".toList, "Identity".toList] = some "Identity".toList := by decide +kernel
  rw [h3] at h2
  obtain ⟨l1, l2, e, _, h4, _⟩ := h2
  match l1, e with
  | [], e =>
    injection e with e _
    exact absurd e (by decide)
  | a :: l1, _ =>
    have := h4 a (by simp)
    dsimp only at this
    omega

/-! ### Languages -/

/-- The parts of a language range: none for the wildcard. -/
def rangeParts (i : AcceptToken) : List Str := if i.token = ['*'] then [] else Py.split '-' (Py.lower i.token)

/-- A language tag in lower case, part by part. -/
def tagParts (l : LanguageTag) : List Str := (l.primary :: l.subtags).map Py.lower

/-- The quality of a language: that of the item with the longest range that is a prefix of it; 0 if there is none. -/
def LanguageQuality (items : List AcceptToken) (l : LanguageTag) (q : Nat) : Prop :=
  (∃ i ∈ items, rangeParts i <+: tagParts l ∧ i.q = q ∧
    ∀ j ∈ items, rangeParts j <+: tagParts l → (rangeParts j).length ≤ (rangeParts i).length) ∨
  (∀ i ∈ items, ¬ rangeParts i <+: tagParts l) ∧ q = 0

/-- **C133.**  A language matches a range if and only if the range is a prefix of it, part by part, without regard to
case. -/
theorem partial_match_exact (l : LanguageTag) (range : List Str) :
    l.partialMatch range = true ↔ range <+: tagParts l := by
  have htag : l.tag = tagParts l := rfl
  unfold LanguageTag.partialMatch
  rw [htag]
  generalize tagParts l = tag
  rw [List.prefix_iff_getElem?]
  by_cases h : range.length > tag.length
  · rw [if_pos h]
    constructor
    · intro h; cases h
    · intro h2
      exfalso
      have := h2 tag.length h
      rw [List.getElem?_eq_none (Nat.le_refl _)] at this
      cases this
  · rw [if_neg h, List.all_eq_true]
    constructor
    · intro h2 i hi
      have := h2 i (List.mem_range.mpr hi)
      rw [decide_eq_true_eq, List.getElem?_eq_getElem hi] at this
      exact this
    · intro h2 i hi
      have hi := List.mem_range.mp hi
      rw [decide_eq_true_eq, List.getElem?_eq_getElem hi]
      exact h2 i hi

instance : Std.TransCmp cmpLanguage := by
  have h3 : Std.TransCmp fun a b : Nat => compare b a := trans_flip
  have h3 : Std.TransCmp fun a b : AcceptToken => compare b.langRange.length a.langRange.length :=
    trans_comap (cmp := fun a b : Nat => compare b a) fun a : AcceptToken => a.langRange.length
  have h4 : Std.TransCmp fun a b : AcceptToken => compare a.langRange b.langRange := trans_comap (cmp := compare) _
  exact @trans_then _ _ _ h3 h4

/-- The quality of the first item of the sorted list that matches a language. -/
def firstLanguage (items : List AcceptToken) (l : LanguageTag) : Nat :=
  match items.find? fun i => l.partialMatch i.langRange with
  | some i => i.q
  | none => 0

theorem firstLanguage_is (items : List AcceptToken) (l : LanguageTag) :
    LanguageQuality items l (firstLanguage (languageList items) l) := by
  have h := find_sorted (cmp := cmpLanguage) (p := fun i => l.partialMatch i.langRange) (items := items)
  unfold firstLanguage languageList
  split at h
  · rename_i hf
    rw [hf]
    refine .inr ⟨fun i hi hp => ?_, rfl⟩
    have := h i hi
    rw [(partial_match_exact l i.langRange).mpr hp] at this
    cases this
  · rename_i i hf
    rw [hf]
    obtain ⟨h1, h2, h3⟩ := h
    refine .inl ⟨i, h1, (partial_match_exact l _).mp h2, rfl, fun j hj hp => ?_⟩
    have := h3 j hj ((partial_match_exact l _).mpr hp)
    show j.langRange.length ≤ i.langRange.length
    unfold cmpLanguage at this
    rcases Nat.lt_or_ge i.langRange.length j.langRange.length with hl | hl
    · rw [Nat.compare_eq_gt.mpr hl] at this
      cases this
    · exact hl

theorem languageQuality_unique {items : List AcceptToken} (hd : items.Pairwise fun a b => rangeParts a ≠ rangeParts b)
    {l : LanguageTag} {a b : Nat} (ha : LanguageQuality items l a) (hb : LanguageQuality items l b) : a = b := by
  rcases ha with ⟨i, hi, hp, rfl, hm⟩ | ⟨hn, rfl⟩
  · rcases hb with ⟨j, hj, hp', rfl, hm'⟩ | ⟨hn, _⟩
    · have e : (rangeParts i).length = (rangeParts j).length := Nat.le_antisymm (hm' i hi hp) (hm j hj hp')
      have e2 : rangeParts i = rangeParts j :=
        (List.prefix_of_prefix_length_le hp hp' (Nat.le_of_eq e)).eq_of_length e
      have : i = j := by
        have : ∀ {l : List AcceptToken}, l.Pairwise (fun a b => rangeParts a ≠ rangeParts b) →
            i ∈ l → j ∈ l → i = j := by
          intro l hl hi hj
          induction l with
          | nil => cases hi
          | cons x l ih =>
            have hx := List.pairwise_cons.mp hl
            rcases List.mem_cons.mp hi with h1 | h1
            · rcases List.mem_cons.mp hj with h2 | h2
              · exact h1.trans h2.symm
              · exact (hx.1 j h2 (h1 ▸ e2)).elim
            · rcases List.mem_cons.mp hj with h2 | h2
              · exact (hx.1 i h1 (h2 ▸ e2.symm)).elim
              · exact ih hx.2 h1 h2
        exact this hd hi hj
      rw [this]
    · exact (hn i hi hp).elim
  · rcases hb with ⟨j, hj, hp', rfl, hm'⟩ | ⟨_, rfl⟩
    · exact (hn j hj hp').elim
    · rfl

/-- **C133 (partial).**  Of the languages on offer the one selected is the first of the best, by the longest range that is
a prefix of each.  Missing: ranges that are repeated, and the text that is returned if no language is acceptable; see
`language_refuted`. -/
theorem language_partial (items : List AcceptToken) (langs : List LanguageTag) (quality : LanguageTag → Nat)
    (hd : items.Pairwise fun a b => rangeParts a ≠ rangeParts b)
    (hq : ∀ l ∈ langs, LanguageQuality items l (quality l)) :
    IsBest quality langs (selectLanguage (languageList items) langs) ∧
    ∀ l, ∃ q, LanguageQuality items l q ∧ ∀ q', LanguageQuality items l q' → q' = q := by
  refine ⟨?_, fun l => ⟨_, firstLanguage_is items l, fun q' h => languageQuality_unique hd h (firstLanguage_is items l)⟩⟩
  unfold selectLanguage
  rw [foldl_congr_mem (g := fun b l => better b l (quality l))]
  · exact select_best quality langs
  · intro b l hl
    rw [languageQuality_unique hd (hq l hl) (firstLanguage_is items l)]
    unfold firstLanguage
    cases (languageList items).find? fun i => l.partialMatch i.langRange with
    | some i => rfl
    | none => unfold better; dsimp only; rw [if_neg (by omega)]

/-- **C133 refuted.**  If no language is acceptable, the text `None` is returned instead of nothing; and if a range is
repeated, the order of the header decides, not the quality. -/
theorem language_refuted :
    (let items := languageList [⟨"fr".toList, 1000⟩]
     let en : LanguageTag := ⟨"en".toList, []⟩
     tokensFromString (fun _ => false) languageList "fr".toList = some (.ok items) ∧
     selectLanguage items [en] = none ∧ selectLanguageToken items [en] = "None".toList) ∧
    (let a : AcceptToken := ⟨"en".toList, 0⟩
     let b : AcceptToken := ⟨"en".toList, 1000⟩
     let en : LanguageTag := ⟨"en".toList, []⟩
     selectLanguage (languageList [a, b]) [en] = none ∧ selectLanguage (languageList [b, a]) [en] = some en) := by
  decide +kernel

/-! ### From the text of a header -/

/-- The words of an item. -/
def tokenWords (i : AcceptToken) : Words :=
  some i.token :: if i.q ≠ 1000 then [some [';'], some ['q'], some ['='], some (formatQ i.q)] else []

/-- The words of a list of items. -/
def tokenListWords : List AcceptToken → Words
  | [] => []
  | [i] => tokenWords i
  | i :: j :: l => tokenWords i ++ some [','] :: tokenListWords (j :: l)

theorem words_tokenItem {i : AcceptToken} (h1 : IsToken i.token) (h2 : i.q ≤ 1000) {rest : Str} {ws : Words}
    (hr : Stops rest) (hw : words true rest = some (.ok ws)) :
    words true (i.format ++ rest) = some (.ok (tokenWords i ++ ws)) := by
  have ht := (token_iff _).mpr h1
  unfold AcceptToken.format tokenWords
  rw [List.append_assoc]
  split
  · have a2 := words_token (quality_exact (fun _ => false) i.q h2).1 hr hw
    have a3 := words_sep (c := '=') (by decide) (by decide) (by decide) (by decide) a2
    have a4 := words_token_then (t := ['q']) ⟨by decide, by decide⟩ (by decide) a3
    have a6 := words_sep (c := ';') (by decide) (by decide) (by decide) (by decide) a4
    have := words_token_then ht (by decide) a6
    simpa using this
  · have := words_token ht hr hw
    simpa using this

theorem words_tokenList {l : List AcceptToken} (h : ∀ i ∈ l, IsToken i.token ∧ i.q ≤ 1000) :
    words true (commaJoin (l.map AcceptToken.format)) = some (.ok (tokenListWords l)) := by
  induction l with
  | nil => exact words_nil true
  | cons i l ih =>
    cases l with
    | nil =>
      have := words_tokenItem (h i (by simp)).1 (h i (by simp)).2 (rest := []) (fun c u e => by cases e) (words_nil true)
      rw [List.append_nil, List.append_nil] at this
      exact this
    | cons j l =>
      have ih := ih (fun k hk => h k (by simp [hk]))
      have hcomma : words true (',' :: ' ' :: commaJoin ((j :: l).map AcceptToken.format)) =
          some (.ok (some [','] :: tokenListWords (j :: l))) := by
        refine words_sep (by decide) (by decide) (by decide) (by decide) ?_
        have : ∃ rest, commaJoin ((j :: l).map AcceptToken.format) = j.token ++ rest := by
          cases l with
          | nil => exact ⟨_, rfl⟩
          | cons k l =>
            exact ⟨(if j.q ≠ 1000 then [';', 'q', '='] ++ formatQ j.q else []) ++ ([',', ' '] ++ commaJoin ((k :: l).map AcceptToken.format)),
              by show j.token ++ _ ++ [',', ' '] ++ _ = _; rw [List.append_assoc, List.append_assoc]; rfl⟩
        obtain ⟨rest, e⟩ := this
        rw [e] at ih ⊢
        have := words_space_token ((token_iff _).mpr (h j (by simp)).1) ih
        simpa using this
      have := words_tokenItem (h i (by simp)).1 (h i (by simp)).2 (rest := ',' :: ' ' :: commaJoin ((j :: l).map AcceptToken.format))
        (fun c u e => by injection e with e _; subst e; decide) hcomma
      have e : commaJoin ((i :: j :: l).map AcceptToken.format) =
          i.format ++ ',' :: ' ' :: commaJoin ((j :: l).map AcceptToken.format) := by
        show i.format ++ [',', ' '] ++ _ = _
        rw [List.append_assoc]
        rfl
      rw [e, this]
      rfl

theorem requireAcceptToken_good (up : Str → Bool) {i : AcceptToken} (h1 : IsToken i.token) (h2 : i.q ≤ 1000) {ws : Words}
    (hf : ItemEnds ws) : requireAcceptToken up (tokenWords i ++ ws) = .ok (i, ws) := by
  have ht := (token_iff _).mpr h1
  unfold requireAcceptToken tokenWords
  rw [List.cons_append, bind_run, parseSP_token ht, Except.bind, bind_run, requireToken_token ht, Except.bind, bind_run]
  split
  · simp only [List.cons_append, List.nil_append]
    rw [optQuality_written up h2, Except.bind]
    rfl
  · rename_i hq
    rw [List.nil_append, optQuality_absent up hf, Except.bind, pure_run]
    obtain ⟨t, q⟩ := i
    have : q = 1000 := by simpa using hq
    subst this
    rfl

theorem tokenLoop_good (up : Str → Bool) {l : List AcceptToken} (h : ∀ i ∈ l, IsToken i.token ∧ i.q ≤ 1000) (n : Nat)
    (hn : l.length ≤ n) : itemLoop (requireAcceptToken up) n (tokenListWords l) = .ok (l, []) := by
  induction l generalizing n with
  | nil => cases n <;> rfl
  | cons i l ih =>
    cases n with
    | zero => simp at hn
    | succ n =>
      cases l with
      | nil =>
        have h1 := requireAcceptToken_good up (h i (by simp)).1 (h i (by simp)).2 (ws := []) (.inl rfl)
        rw [List.append_nil] at h1
        show itemLoop (requireAcceptToken up) (n + 1) (tokenWords i) = _
        unfold itemLoop
        have hc : cWord (tokenWords i) = some i.token := rfl
        rw [hc, if_neg (by simp), bind_run]
        have : parseProduction (requireAcceptToken up) (tokenWords i) = .ok (some i, []) := by
          unfold parseProduction; rw [h1]
        rw [this]
        rfl
      | cons j l =>
        have h1 := requireAcceptToken_good up (h i (by simp)).1 (h i (by simp)).2 (ws := some [','] :: tokenListWords (j :: l))
          (.inr ⟨_, rfl⟩)
        show itemLoop (requireAcceptToken up) (n + 1) (tokenWords i ++ some [','] :: tokenListWords (j :: l)) = _
        unfold itemLoop
        have hc : cWord (tokenWords i ++ some [','] :: tokenListWords (j :: l)) = some i.token := rfl
        rw [hc, if_neg (by simp), bind_run]
        have : parseProduction (requireAcceptToken up) (tokenWords i ++ some [','] :: tokenListWords (j :: l)) =
            .ok (some i, some [','] :: tokenListWords (j :: l)) := by
          unfold parseProduction; rw [h1]
        rw [this, Except.bind]
        dsimp only
        rw [bind_run, parseSP_other (by simp [cWord]), Except.bind, bind_run, parseSeparator_self, Except.bind]
        dsimp only
        rw [if_pos rfl, bind_run, ih (fun k hk => h k (by simp [hk])) n (by simp only [List.length_cons] at hn ⊢; omega)]
        rfl

theorem tokenListWords_length {l : List AcceptToken} : l.length ≤ (tokenListWords l).length := by
  induction l with
  | nil => exact Nat.le_refl _
  | cons i l ih =>
    cases l with
    | nil => simp [tokenListWords, tokenWords]
    | cons j l => simp only [tokenListWords, List.length_append, List.length_cons] at ih ⊢; omega

/-- **C133.**  The text of a header with the items in any order is read as those items, put in order. -/
theorem tokens_read_exact (up : Str → Bool) (sort : List AcceptToken → List AcceptToken) (items : List AcceptToken)
    (h : ∀ i ∈ items, IsToken i.token ∧ i.q ≤ 1000) :
    tokensFromString up sort (commaJoin (items.map AcceptToken.format)) = some (.ok (sort items)) := by
  refine fromString_ok (r := []) (words_tokenList h) ?_
  have hcw : cWord (tokenListWords items) ≠ some [' '] := by
    cases items with
    | nil => simp [tokenListWords, cWord]
    | cons i l =>
      have hi := (token_iff _).mpr (h i (by simp)).1
      have : cWord (tokenListWords (i :: l)) = some i.token := by cases l <;> rfl
      rw [this]
      simp only [ne_eq, Option.some.injEq]
      exact token_ne_sep hi (by decide)
  rw [bind_run, parseSP_other hcw, Except.bind, bind_run, get_run, Except.bind, bind_run,
    tokenLoop_good up h _ tokenListWords_length]
  rfl

/-- The hypotheses of the theorems are met: the items of a header for each. -/
theorem token_hypotheses :
    let items : List AcceptToken := [⟨['*'], 100⟩, ⟨"gzip".toList, 500⟩, ⟨"GZIP".toList, 800⟩]
    TokenQuality items "Gzip".toList 0 800 ∧ TokenQuality items "compress".toList 0 100 ∧
    commaJoin (items.map AcceptToken.format) = "*;q=0.1, gzip;q=0.5, GZIP;q=0.8".toList ∧
    selectToken (tokenList items) ["compress".toList, "Gzip".toList] = some "Gzip".toList ∧
    TokenQuality [⟨"utf-8".toList, 900⟩] "ISO-8859-1".toList 1000 1000 ∧
    selectCharset (tokenList [⟨"utf-8".toList, 900⟩]) ["utf-8".toList, "ISO-8859-1".toList] = some "ISO-8859-1".toList ∧
    EncodingRank [⟨"gzip".toList, 1⟩] "identity".toList 1 ∧
    selectEncoding (tokenList [⟨"gzip".toList, 1⟩]) ["identity".toList, "gzip".toList] = some "gzip".toList ∧
    selectLanguage (languageList [⟨"en".toList, 500⟩, ⟨"en-gb".toList, 800⟩]) [⟨"en".toList, ["us".toList]⟩, ⟨"EN".toList, ["GB".toList]⟩] =
      some ⟨"EN".toList, ["GB".toList]⟩ := by
  refine ⟨?_, ?_, by decide +kernel, by decide +kernel, ?_, by decide +kernel, ?_, by decide +kernel, by decide +kernel⟩
  · refine .inl ⟨⟨"GZIP".toList, 800⟩, by simp, by unfold Names; decide, rfl, ?_⟩
    intro j hj hn
    simp only [List.mem_cons, List.not_mem_nil, or_false] at hj
    rcases hj with rfl | rfl | rfl <;> decide
  · refine .inr ⟨?_, .inl ⟨⟨['*'], 100⟩, by simp, rfl, rfl, ?_⟩⟩
    · unfold Names; decide
    · decide
  · exact .inr ⟨by unfold Names; decide, .inr ⟨by decide, rfl⟩⟩
  · exact .inr ⟨by decide, by unfold Names; decide, rfl⟩

end Verif.Props
