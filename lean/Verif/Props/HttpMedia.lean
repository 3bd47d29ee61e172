import Verif.Lemmas.HttpValues
import Verif.Props.HttpWords
import Verif.Lemmas.HttpOrder

/-!
# Writing and reading media types and Accept headers

C130: media types are written and read back.
C131: qualities and Accept headers are written and read back.
-/

set_option linter.unusedVariables false
set_option linter.unusedSimpArgs false

namespace Verif.Props

open Verif Verif.Http

/-! ## What a token is -/

/-- The characters of a token: no controls, no separators (RFC 2616, 2.2; characters above 127 are allowed here). -/
def TokenChar (c : Char) : Prop := 32 < c.toNat ∧ c.toNat ≠ 127 ∧ c ∉ "()<>@,;:\\\"/[]?={}".toList

/-- A token: one or more token characters. -/
def IsToken (t : Str) : Prop := t ≠ [] ∧ ∀ c ∈ t, TokenChar c

theorem isSep_iff (c : Char) : isSep c = true ↔ (c ∈ "()<>@,;:\\\"/[]?={}".toList ∨ c = ' ' ∨ c = '\t') := by
  unfold isSep
  rw [List.contains_iff_mem]
  simp only [String.reduceToList, List.mem_cons, List.not_mem_nil, or_false]
  constructor
  · intro h
    rcases h with h | h | h | h | h | h | h | h | h | h | h | h | h | h | h | h | h | h | h <;> simp [h]
  · intro h
    rcases h with (h | h | h | h | h | h | h | h | h | h | h | h | h | h | h | h | h) | h | h <;> simp [h]

theorem isTok_iff (c : Char) : isTok c = true ↔ TokenChar c := by
  have h1 := isSep_iff c
  unfold isTok TokenChar
  simp only [Bool.and_eq_true, Bool.not_eq_true']
  constructor
  · rintro ⟨hc, hs⟩
    have hn : ¬ isSep c = true := by rw [hs]; decide
    unfold isCtl at hc
    simp only [Bool.or_eq_false_iff, decide_eq_false_iff_not, beq_eq_false_iff_ne] at hc
    refine ⟨?_, hc.2, fun h => hn (h1.mpr (.inl h))⟩
    have : c.toNat ≠ 32 := by
      intro e
      apply hn
      rw [h1]
      refine .inr (.inl ?_)
      exact Char.toNat_inj.mp e
    omega
  · rintro ⟨h2, h3, h4⟩
    constructor
    · unfold isCtl
      simp only [Bool.or_eq_false_iff, decide_eq_false_iff_not, beq_eq_false_iff_ne]
      exact ⟨by omega, h3⟩
    · cases hs : isSep c with
      | false => rfl
      | true =>
        rcases h1.mp hs with h | h | h
        · exact absurd h h4
        · subst h; exact absurd h2 (by decide)
        · subst h; exact absurd h2 (by decide)

theorem token_iff (t : Str) : Token t ↔ IsToken t := by
  unfold Token IsToken
  rw [List.all_eq_true]
  exact and_congr_right fun _ => forall_congr' fun c => by rw [isTok_iff]

/-! ## C130 -/

/-- Text that is not empty and, unless it is a token, consists of octets. -/
def ValueText (v : Str) : Prop := v ≠ [] ∧ (IsToken v ∨ ∀ c ∈ v, c.toNat < 256)

/-- A dictionary of parameters with names that are tokens, looked up by their lower-case forms, and values that are not
empty. -/
def ParamsOk (ps : Params) : Prop :=
  (∀ p ∈ ps, IsToken p.name ∧ p.key = Py.lower p.name ∧ ValueText p.value) ∧
  ps.Pairwise fun a b => compare a.key b.key = .lt

theorem paramsOk_good {ps : Params} (h : ParamsOk ps) : GoodParams ps := by
  refine ⟨fun p hp => ?_, h.2⟩
  obtain ⟨h1, h2, h3, h4⟩ := h.1 p hp
  refine ⟨(token_iff _).mpr h1, h2, h3, ?_⟩
  rcases h4 with h4 | h4
  · exact .inl ((token_iff _).mpr h4).2
  · refine .inr (List.all_eq_true.mpr fun c hc => ?_)
    unfold isOctet
    rw [decide_eq_true_eq]
    exact h4 c hc

theorem fromString_ok {α : Type} {ign : Bool} {m : P α} {s : Str} {ws : Words} {a : α} {r : Words}
    (hw : words ign s = some (.ok ws)) (hm : m ws = .ok (a, r)) : fromString ign m s = some (.ok a) := by
  unfold fromString
  rw [hw]
  show some ((m ws).map _) = _
  rw [hm]
  rfl

/-- **C130 (partial).**  A media type is written so that reading gives the type and subtype in lower case and the same
parameters, with the spelling of their names: the two compare equal.  Missing: parameters with empty values, see
`media_refuted`. -/
theorem media_partial (m : MediaType) (h1 : IsToken m.type) (h2 : IsToken m.subtype) (h3 : ParamsOk m.params) :
    mediaTypeFromString m.format =
      some (.ok ⟨Py.lower m.type, Py.lower m.subtype, m.params⟩) ∧
    cmpMedia m ⟨Py.lower m.type, Py.lower m.subtype, m.params⟩ = .eq := by
  have hg : GoodType m := ⟨(token_iff _).mpr h1, (token_iff _).mpr h2, paramsOk_good h3⟩
  constructor
  · have hw := words_type (ign := false) (rest := []) hg (fun c u e => by cases e) (words_nil false)
    rw [List.append_nil, List.append_nil] at hw
    refine fromString_ok (r := []) hw ?_
    have := requireMediaType_good (ign := false) (qm := none) (ws := []) hg (fun p _ => by simp) (.inl rfl) (by simp [cWord])
    rw [List.append_nil] at this
    rw [bind_run, this, Except.bind]
    rfl
  · unfold cmpMedia
    show ((compare (Py.lower m.type) (Py.lower (Py.lower m.type))).then
      ((compare (Py.lower m.subtype) (Py.lower (Py.lower m.subtype))).then
        (List.compareLex (compareLex (compareOn Prod.fst) (compareOn Prod.snd)) m.hp m.hp))) = _
    rw [lower_idem, lower_idem, Std.ReflCmp.compare_self (cmp := compare), Std.ReflCmp.compare_self (cmp := compare),
      Std.ReflCmp.compare_self (cmp := List.compareLex (compareLex (compareOn Prod.fst) (compareOn Prod.snd)))]
    rfl

/-- **C130 refuted.**  A media type with an empty parameter value, one that can be read, is written as text that cannot
be read. -/
theorem media_refuted :
    mediaTypeFromString "text/plain; a=\"\"".toList =
      some (.ok ⟨"text".toList, "plain".toList, [⟨['a'], ['a'], []⟩]⟩) ∧
    mediaTypeFromString (MediaType.format ⟨"text".toList, "plain".toList, [⟨['a'], ['a'], []⟩]⟩) =
      some (.error .syntaxError) := by decide +kernel

/-- The hypotheses of `media_partial` are met by a media type with two parameters, one of them quoted. -/
theorem media_hypotheses :
    let m : MediaType := ⟨"Text".toList, "plain".toList,
      [⟨"charset".toList, "charset".toList, "utf-8".toList⟩, ⟨"name".toList, "Name".toList, "a \"b\"".toList⟩]⟩
    IsToken m.type ∧ IsToken m.subtype ∧ ParamsOk m.params ∧
      m.format = "Text/plain; charset=utf-8; Name=\"a \\\"b\\\"\"".toList := by
  have tok : ∀ t : Str, t ≠ [] → t.all isTok = true → IsToken t := fun t h1 h2 => (token_iff t).mp ⟨h1, h2⟩
  refine ⟨tok _ (by decide) (by decide +kernel), tok _ (by decide) (by decide +kernel), ⟨?_, by decide +kernel⟩, by decide +kernel⟩
  intro p hp
  simp only [List.mem_cons, List.not_mem_nil, or_false] at hp
  rcases hp with rfl | rfl
  · exact ⟨tok _ (by decide) (by decide +kernel), by decide +kernel, by decide, .inl (tok _ (by decide) (by decide +kernel))⟩
  · exact ⟨tok _ (by decide) (by decide +kernel), by decide +kernel, by decide, .inr (by decide +kernel)⟩

/-! ## C131 -/

/-- The parts of a quality between points, with at most three digits after the point, stand for so many thousandths. -/
def qualityWritten (k : Nat) : List Str → Bool
  | [a] => isDigits a && min 1000 (Py.digitsVal 10 a * 1000) == k
  | [a, b] => isDigits a && isDigits b && (b.drop 3).isEmpty &&
      min 1000 (Py.digitsVal 10 a * 1000 + Py.digitsVal 10 ((b ++ ['0', '0', '0']).take 3)) == k
  | _ => false

/-- **C131.**  A quality of so many thousandths is written so that it is read back, however numbers are rounded. -/
theorem quality_exact (up : Str → Bool) (q : Nat) (hq : q ≤ 1000) :
    Token (formatQ q) ∧ qualityOf up (formatQ q) = some q := by
  have key : ∀ k, k < 1001 → (formatQ k ≠ [] ∧ (formatQ k).all isTok = true) ∧ qualityWritten k (Py.split '.' (formatQ k)) = true := by
    decide +kernel
  have := key q (by omega)
  refine ⟨this.1, ?_⟩
  have h2 := this.2
  unfold qualityOf
  unfold qualityWritten at h2
  split at h2
  · rename_i a ha
    rw [ha]
    simp only [Bool.and_eq_true, beq_iff_eq] at h2
    simp only
    rw [if_pos h2.1, h2.2]
  · rename_i a b ha
    rw [ha]
    simp only [Bool.and_eq_true, beq_iff_eq, List.isEmpty_iff] at h2
    obtain ⟨⟨⟨ha, hb⟩, hd⟩, he⟩ := h2
    simp only
    unfold thousandths
    rw [ha, hb, hd]
    simp only [List.any_nil, Bool.false_and, Bool.false_eq_true, if_false, Nat.add_zero, Bool.and_self, if_true]
    rw [he]
  · cases h2

/-- **C131.**  Every quality that is read is at most 1, and a number written with up to three digits after the point is
read exactly, numbers above 1 as 1. -/
theorem quality_read_exact (up : Str → Bool) (a b : Str) (ha : a ≠ []) (hb : b ≠ []) (had : ∀ c ∈ a, Py.isDigit c = true)
    (hbd : ∀ c ∈ b, Py.isDigit c = true) (hl : b.length ≤ 3) :
    qualityOf up a = some (min 1000 (Py.digitsVal 10 a * 1000)) ∧
    qualityOf up (a ++ '.' :: b) = some (min 1000 (Py.digitsVal 10 a * 1000 + Py.digitsVal 10 b * 10 ^ (3 - b.length))) := by
  have nodot : ∀ s : Str, (∀ c ∈ s, Py.isDigit c = true) → ∀ t, Py.split '.' (s ++ t) =
      match Py.split '.' t with | [] => [s] | p :: ps => (s ++ p) :: ps := by
    intro s
    induction s with
    | nil =>
      intro _ t
      show Py.split '.' t = _
      cases h : Py.split '.' t with
      | nil =>
        exfalso
        cases t with
        | nil => cases h
        | cons c t =>
          rw [Py.split] at h
          split at h
          · cases h
          · split at h <;> cases h
      | cons p ps => rfl
    | cons c s ih =>
      intro hs t
      have hc : c ≠ '.' := by intro e; subst e; exact absurd (hs '.' (by simp)) (by decide)
      rw [List.cons_append, Py.split, if_neg hc, ih (fun d hd => hs d (by simp [hd])) t]
      cases Py.split '.' t <;> rfl
  have h1 : Py.split '.' a = [a] := by
    have := nodot a had []
    rw [List.append_nil] at this
    rw [this]
    simp [Py.split]
  have h2 : Py.split '.' (a ++ '.' :: b) = [a, b] := by
    rw [nodot a had]
    have hb1 := nodot b hbd []
    rw [List.append_nil] at hb1
    have : Py.split '.' ('.' :: b) = [] :: Py.split '.' b := by rw [Py.split, if_pos rfl]
    rw [this, hb1]
    simp [Py.split]
  have da : isDigits a = true := by
    unfold isDigits
    rw [Bool.and_eq_true]
    exact ⟨by cases a <;> simp_all, List.all_eq_true.mpr had⟩
  have db : isDigits b = true := by
    unfold isDigits
    rw [Bool.and_eq_true]
    exact ⟨by cases b <;> simp_all, List.all_eq_true.mpr hbd⟩
  constructor
  · unfold qualityOf; rw [h1]; simp only; rw [if_pos da]
  · unfold qualityOf
    rw [h2]
    simp only
    rw [da, db]
    simp only [Bool.and_self, if_true, Option.some.injEq]
    have ht : thousandths up b = Py.digitsVal 10 b * 10 ^ (3 - b.length) := by
      unfold thousandths
      have hd : b.drop 3 = [] := List.drop_eq_nil_of_le hl
      rw [hd]
      simp only [List.any_nil, Bool.false_and, Bool.false_eq_true, if_false, Nat.add_zero]
      match b, hb, hl with
      | [x], _, _ => simp [Py.digitsVal, Py.hexVal]; omega
      | [x, y], _, _ => simp [Py.digitsVal, Py.hexVal]
      | [x, y, z], _, _ => simp [Py.digitsVal]
    rw [ht]

/-- An item that can be written: its media range is in lower case and has no parameter called `q`. -/
def ItemOk (i : AcceptItem) : Prop :=
  IsToken i.range.type ∧ IsToken i.range.subtype ∧ Py.lower i.range.type = i.range.type ∧
  Py.lower i.range.subtype = i.range.subtype ∧ ParamsOk i.range.params ∧ (∀ p ∈ i.range.params, p.key ≠ ['q']) ∧
  ParamsOk i.params ∧ i.q ≤ 1000

/-- The words of an item. -/
def itemWords (i : AcceptItem) : Words :=
  typeWords true i.range ++
    if !i.params.isEmpty || i.q ≠ 1000 then
      [some [';'], some ['q'], some ['='], some (formatQ i.q)] ++ i.params.flatMap (paramWords true)
    else []

theorem words_item {i : AcceptItem} (h : ItemOk i) {rest : Str} {ws : Words} (hr : Stops rest)
    (hw : words true rest = some (.ok ws)) : words true (i.format ++ rest) = some (.ok (itemWords i ++ ws)) := by
  obtain ⟨h1, h2, h3, h4, h5, h6, h7, h8⟩ := h
  have hg : GoodType i.range := ⟨(token_iff _).mpr h1, (token_iff _).mpr h2, paramsOk_good h5⟩
  unfold AcceptItem.format itemWords
  rw [List.append_assoc, List.append_assoc]
  split
  · have hs : Stops (formatParameters i.params ++ rest) := by
      cases hp : i.params with
      | nil => exact hr
      | cons q qs =>
        intro c u e
        unfold formatParameters at e
        simp only [List.flatMap_cons, List.cons_append] at e
        injection e with e _
        subst e
        decide
    have a1 := words_params (ign := true) (paramsOk_good h7).1 hr hw
    have a2 := words_token (quality_exact (fun _ => false) i.q h8).1 hs a1
    have a3 := words_sep (c := '=') (by decide) (by decide) (by decide) (by decide) a2
    have a4 := words_token_then (t := ['q']) ⟨by decide, by decide⟩ (by decide) a3
    have a5 := words_space_token (t := ['q']) ⟨by decide, by decide⟩ a4
    have a6 := words_sep (c := ';') (by decide) (by decide) (by decide) (by decide) a5
    have := words_type (ign := true) hg (rest := ';' :: ' ' :: (['q'] ++ '=' :: (formatQ i.q ++ (formatParameters i.params ++ rest))))
      (fun c u e => by injection e with e _; subst e; decide) a6
    simpa using this
  · have := words_type (ign := true) hg hr hw
    simpa using this

/-- The words that may follow an item: none, or a comma and so on. -/
def ItemEnds (ws : Words) : Prop := ws = [] ∨ ∃ r, ws = some [','] :: r

theorem follows_stops {ws : Words} (h : ItemEnds ws) (ia : Bool) (qm : Option Str) :
    LoopStops ia qm ws ∧ cWord ws ≠ some [' '] ∧ cWord ws ≠ some [';'] := by
  rcases h with rfl | ⟨r, rfl⟩
  · exact ⟨.inl rfl, by simp [cWord], by simp [cWord]⟩
  · exact ⟨.inr rfl, by simp [cWord], by simp [cWord]⟩

theorem optQuality_written (up : Str → Bool) {q : Nat} (h : q ≤ 1000) (ws : Words) :
    optQuality up (some [';'] :: some ['q'] :: some ['='] :: some (formatQ q) :: ws) = .ok ((q, true), ws) := by
  have hq := quality_exact up q h
  unfold optQuality
  rw [bind_run, parseSP_other (by simp [cWord]), Except.bind, bind_run, parseSeparator_self, Except.bind]
  dsimp only
  rw [if_pos rfl, bind_run, parseSP_token ⟨by decide, by decide⟩, Except.bind, bind_run,
    requireToken_token ⟨by decide, by decide⟩, Except.bind]
  dsimp only
  rw [if_neg (by decide), bind_run, parseSP_other (by simp [cWord]), Except.bind, bind_run, requireSeparator_self,
    Except.bind, bind_run, parseSP_token hq.1, Except.bind, bind_run]
  have : requireQuality up (some (formatQ q) :: ws) = .ok (q, ws) := by
    unfold requireQuality
    rw [isToken_token hq.1]
    simp [cWord, hq.2]
  rw [this]
  rfl

theorem optQuality_absent (up : Str → Bool) {ws : Words} (hf : ItemEnds ws) : optQuality up ws = .ok ((1000, false), ws) := by
  unfold optQuality
  rw [bind_run, parseSP_other (follows_stops hf false none).2.1, Except.bind, bind_run,
    parseSeparator_other (follows_stops hf false none).2.2, Except.bind]
  rfl

theorem requireAcceptItem_good (up : Str → Bool) {i : AcceptItem} (h : ItemOk i) {ws : Words} (hf : ItemEnds ws) :
    requireAcceptItem up (itemWords i ++ ws) = .ok (i, ws) := by
  obtain ⟨h1, h2, h3, h4, h5, h6, h7, h8⟩ := h
  have hg : GoodType i.range := ⟨(token_iff _).mpr h1, (token_iff _).mpr h2, paramsOk_good h5⟩
  have hlow : lowered i.range = i.range := by
    unfold lowered
    rw [h3, h4]
  have hq := quality_exact up i.q h8
  have hkq : ∀ p ∈ i.range.params, some p.key ≠ some ['q'] := fun p hp e => h6 p hp (by injection e)
  unfold requireAcceptItem itemWords
  rw [List.append_assoc]
  have hsp : ∀ r, parseSP (typeWords true i.range ++ r) = .ok ((), typeWords true i.range ++ r) := fun r => parseSP_token hg.1 _
  rw [bind_run, hsp, Except.bind, bind_run]
  split
  · rename_i hc
    have hls : LoopStops false (some ['q']) ([some [';'], some ['q'], some ['='], some (formatQ i.q)] ++
        i.params.flatMap (paramWords true) ++ ws) := .inr rfl
    have := requireMediaType_good (ign := true) (qm := some ['q']) hg hkq hls (by simp [cWord])
    rw [this, Except.bind, hlow, bind_run]
    have hopt : optQuality up ([some [';'], some ['q'], some ['='], some (formatQ i.q)] ++
        i.params.flatMap (paramWords true) ++ ws) = .ok ((i.q, true), i.params.flatMap (paramWords true) ++ ws) := by
      simp only [List.cons_append, List.nil_append, List.append_assoc]
      exact optQuality_written up h8 _
    rw [hopt, Except.bind]
    dsimp only
    rw [if_pos rfl, bind_run,
      parseParameters_good (paramsOk_good h7) (fun p _ => by simp) (follows_stops hf true none).1 (follows_stops hf true none).2.1]
    rfl
  · rename_i hc
    have hc' : i.params = [] ∧ i.q = 1000 := by
      simp only [Bool.or_eq_true, not_or, Bool.not_eq_true', decide_eq_true_eq, Bool.not_eq_false', List.isEmpty_iff] at hc
      exact ⟨by simpa using hc.1, by simpa using hc.2⟩
    rw [List.nil_append]
    have := requireMediaType_good (ign := true) (qm := some ['q']) hg hkq (follows_stops hf false (some ['q'])).1
      (follows_stops hf false (some ['q'])).2.1
    rw [this, Except.bind, hlow, bind_run]
    rw [optQuality_absent up hf, Except.bind]
    dsimp only
    rw [if_neg (by decide), pure_run]
    obtain ⟨r, q, p⟩ := i
    simp only at hc'
    obtain ⟨rfl, rfl⟩ := hc'
    rfl

/-- The words of a list of items. -/
def listWords : List AcceptItem → Words
  | [] => []
  | [i] => itemWords i
  | i :: j :: l => itemWords i ++ some [','] :: listWords (j :: l)

theorem format_head {i : AcceptItem} (h : ItemOk i) (rest : Str) : ∃ t u, Token t ∧ i.format ++ rest = t ++ u := by
  refine ⟨i.range.type, ('/' :: i.range.subtype ++ formatParameters i.range.params) ++
    ((if !i.params.isEmpty || i.q ≠ 1000 then "; q=".toList ++ formatQ i.q ++ formatParameters i.params else []) ++ rest),
    (token_iff _).mpr h.1, ?_⟩
  unfold AcceptItem.format MediaType.format
  simp [List.append_assoc]

theorem words_list {l : List AcceptItem} (h : ∀ i ∈ l, ItemOk i) : words true (formatAccept l) = some (.ok (listWords l)) := by
  induction l with
  | nil => exact words_nil true
  | cons i l ih =>
    cases l with
    | nil =>
      have := words_item (h i (by simp)) (rest := []) (fun c u e => by cases e) (words_nil true)
      rw [List.append_nil, List.append_nil] at this
      exact this
    | cons j l =>
      have ih := ih (fun k hk => h k (by simp [hk]))
      have hcomma : words true (',' :: ' ' :: formatAccept (j :: l)) = some (.ok (some [','] :: listWords (j :: l))) := by
        refine words_sep (by decide) (by decide) (by decide) (by decide) ?_
        have : ∃ rest, formatAccept (j :: l) = j.format ++ rest := by
          cases l with
          | nil => exact ⟨[], by rw [List.append_nil]; rfl⟩
          | cons k l =>
            exact ⟨[',', ' '] ++ formatAccept (k :: l), by show j.format ++ [',', ' '] ++ _ = _; rw [List.append_assoc]; rfl⟩
        obtain ⟨rest, e⟩ := this
        obtain ⟨t, u, ht, e2⟩ := format_head (h j (by simp)) rest
        rw [e, e2] at ih ⊢
        have := words_space_token ht ih
        simpa using this
      have := words_item (h i (by simp)) (rest := ',' :: ' ' :: formatAccept (j :: l))
        (fun c u e => by injection e with e _; subst e; decide) hcomma
      have e : formatAccept (i :: j :: l) = i.format ++ ',' :: ' ' :: formatAccept (j :: l) := by
        show i.format ++ [',', ' '] ++ _ = _
        rw [List.append_assoc]
        rfl
      rw [e, this]
      rfl

theorem itemWords_cWord {i : AcceptItem} (h : ItemOk i) (ws : Words) : cWord (itemWords i ++ ws) = some i.range.type := rfl

theorem itemLoop_good (up : Str → Bool) {l : List AcceptItem} (h : ∀ i ∈ l, ItemOk i) (n : Nat) (hn : l.length ≤ n) :
    itemLoop (requireAcceptItem up) n (listWords l) = .ok (l, []) := by
  induction l generalizing n with
  | nil => cases n <;> rfl
  | cons i l ih =>
    cases n with
    | zero => simp at hn
    | succ n =>
      cases l with
      | nil =>
        have h1 := requireAcceptItem_good up (h i (by simp)) (ws := []) (.inl rfl)
        rw [List.append_nil] at h1
        show itemLoop (requireAcceptItem up) (n + 1) (itemWords i) = _
        unfold itemLoop
        have hc := itemWords_cWord (h i (by simp)) []
        rw [List.append_nil] at hc
        rw [hc, if_neg (by simp), bind_run]
        have : parseProduction (requireAcceptItem up) (itemWords i) = .ok (some i, []) := by
          unfold parseProduction; rw [h1]
        rw [this]
        rfl
      | cons j l =>
        have h1 := requireAcceptItem_good up (h i (by simp)) (ws := some [','] :: listWords (j :: l)) (.inr ⟨_, rfl⟩)
        show itemLoop (requireAcceptItem up) (n + 1) (itemWords i ++ some [','] :: listWords (j :: l)) = _
        unfold itemLoop
        rw [itemWords_cWord (h i (by simp)), if_neg (by simp), bind_run]
        have : parseProduction (requireAcceptItem up) (itemWords i ++ some [','] :: listWords (j :: l)) =
            .ok (some i, some [','] :: listWords (j :: l)) := by
          unfold parseProduction; rw [h1]
        rw [this, Except.bind]
        dsimp only
        rw [bind_run, parseSP_other (by simp [cWord]), Except.bind, bind_run, parseSeparator_self, Except.bind]
        dsimp only
        rw [if_pos rfl, bind_run, ih (fun k hk => h k (by simp [hk])) n (by simp only [List.length_cons] at hn ⊢; omega)]
        rfl

theorem listWords_length {l : List AcceptItem} : l.length ≤ (listWords l).length := by
  induction l with
  | nil => exact Nat.le_refl _
  | cons i l ih =>
    cases l with
    | nil => simp [listWords, itemWords, typeWords]
    | cons j l => simp only [listWords, List.length_append, List.length_cons] at ih ⊢; omega

/-- **C131 (partial).**  An Accept header made of items is written so that reading it gives the same list, in the same
order, with the same qualities and parameters.  Missing: items with empty parameter values or with a media parameter
called `q`, see `accept_refuted`. -/
theorem accept_partial (up : Str → Bool) (items : List AcceptItem) (h0 : items ≠ []) (h : ∀ i ∈ items, ItemOk i) :
    acceptFromString up (formatAccept (acceptList items)) = some (.ok (acceptList items)) := by
  have hperm := Paging.stableSort_perm (le := fun a b => (cmpItem a b).isLE) items
  have hl : ∀ i ∈ acceptList items, ItemOk i := fun i hi => h i (hperm.mem_iff.mp hi)
  have hne : acceptList items ≠ [] := by
    intro e
    have := hperm.length_eq
    unfold acceptList at e
    rw [e] at this
    cases items with
    | nil => exact h0 rfl
    | cons => simp at this
  have hsort : acceptList (acceptList items) = acceptList items :=
    stableSort_of_sorted (Paging.stableSort_sorted comparison_of_trans items)
  generalize acceptList items = l at hl hne hsort
  refine fromString_ok (r := []) (words_list hl) ?_
  have hcw : cWord (listWords l) ≠ some [' '] := by
    cases l with
    | nil => simp [listWords, cWord]
    | cons i l =>
      have hi := (token_iff _).mpr (hl i (by simp)).1
      have : cWord (listWords (i :: l)) = some i.range.type := by cases l <;> rfl
      rw [this]
      simp only [ne_eq, Option.some.injEq]
      exact token_ne_sep hi (by decide)
  have hreq : requireAcceptList up (listWords l) = .ok (l, []) := by
    unfold requireAcceptList
    rw [bind_run, parseSP_other hcw, Except.bind, bind_run, get_run, Except.bind, bind_run,
      itemLoop_good up hl _ listWords_length, Except.bind]
    dsimp only
    have : l.isEmpty = false := by cases l <;> simp_all
    rw [this]
    show Except.ok (acceptList l, []) = _
    rw [hsort]
  rw [bind_run, hreq]
  rfl

/-- **C131 refuted.**  A header with an empty parameter value, one that can be read, is written as text that cannot be
read; so is an item whose range has a parameter called `q`, which is taken for the quality; and a list with an empty
element, which RFC 2616 allows, is not read. -/
theorem accept_refuted :
    let up : Str → Bool := fun _ => false
    (∃ l, acceptFromString up "text/plain; a=\"\"".toList = some (.ok l) ∧
      acceptFromString up (formatAccept l) = some (.error .syntaxError)) ∧
    (let i : AcceptItem := ⟨⟨"text".toList, "plain".toList, [⟨['q'], ['q'], ['0']⟩]⟩, 1000, []⟩
     acceptFromString up (formatAccept [i]) = some (.ok [⟨⟨"text".toList, "plain".toList, []⟩, 0, []⟩])) ∧
    acceptFromString up "text/plain,,text/html".toList = some (.error .syntaxError) := by
  refine ⟨⟨[⟨⟨"text".toList, "plain".toList, [⟨['a'], ['a'], []⟩]⟩, 1000, []⟩], ?_, ?_⟩, ?_, ?_⟩
  · decide +kernel
  · decide +kernel
  · decide +kernel
  · decide +kernel

/-- The hypotheses of `accept_partial` are met by two items, which are put in order. -/
theorem accept_hypotheses :
    let items : List AcceptItem := [⟨⟨"text".toList, "*".toList, []⟩, 500, []⟩,
      ⟨⟨"text".toList, "plain".toList, [⟨"level".toList, "Level".toList, ['1']⟩]⟩, 1000, [⟨['x'], ['x'], "a b".toList⟩]⟩]
    (∀ i ∈ items, ItemOk i) ∧
      formatAccept (acceptList items) = "text/plain; Level=1; q=1; x=\"a b\", text/*; q=0.5".toList := by
  have tok : ∀ t : Str, t ≠ [] → t.all isTok = true → IsToken t := fun t h1 h2 => (token_iff t).mp ⟨h1, h2⟩
  refine ⟨?_, by decide +kernel⟩
  intro i hi
  simp only [List.mem_cons, List.not_mem_nil, or_false] at hi
  rcases hi with rfl | rfl
  · refine ⟨tok _ (by decide) (by decide +kernel), tok _ (by decide) (by decide +kernel), by decide, by decide,
      ⟨fun p hp => (List.not_mem_nil hp).elim, .nil⟩, fun p hp => (List.not_mem_nil hp).elim,
      ⟨fun p hp => (List.not_mem_nil hp).elim, .nil⟩, by decide⟩
  · refine ⟨tok _ (by decide) (by decide +kernel), tok _ (by decide) (by decide +kernel), by decide, by decide,
      ⟨?_, by decide +kernel⟩, by decide +kernel, ⟨?_, by decide +kernel⟩, by decide⟩
    · intro p hp
      rw [List.mem_singleton] at hp
      subst hp
      exact ⟨tok _ (by decide) (by decide +kernel), by decide +kernel, by decide, .inl (tok _ (by decide) (by decide +kernel))⟩
    · intro p hp
      rw [List.mem_singleton] at hp
      subst hp
      exact ⟨tok _ (by decide) (by decide +kernel), by decide +kernel, by decide, .inr (by decide +kernel)⟩

end Verif.Props
