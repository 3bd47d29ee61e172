import Verif.Model.AbnfText

/-!
# Texts of grammars are not read
-/

namespace Verif.Props.AbnfText
open Verif Verif.Abnf Verif.AbnfText

/-- A parser of elements that raises no `RFC2234Error`: what `ParseElement` calls raises `RFCSyntaxError` or, for groups, an
`AttributeError` (abnf:983-1095). -/
def Plain (element : Base → Text → Result Nat) : Prop := ∀ b t b', element b t ≠ .error (.rfc2234, b')

theorem plain_repetition {element : Base → Text → Result Nat} (h : Plain element) : Plain (parseRepetition element) := by
  intro b t b'
  unfold parseRepetition
  dsimp only
  repeat' split
  all_goals intro hr
  all_goals first
    | exact h _ _ _ hr
    | cases hr
  all_goals first
    | (next he => exact h _ _ _ he)

/-- A concatenation is read to the end of the text, or not at all. -/
theorem moreRepetitions_end {element : Base → Text → Result Nat} (h : Plain element) : ∀ (n : Nat) (is : List Nat) (b : Base)
    (t : Text) (is' : List Nat) (b' : Base) (t' : Text), moreRepetitions element n is b t = .ok (is', b', t') → t' = []
  | n, is, b, [], is', b', t', hr => by
    rw [moreRepetitions.eq_def] at hr
    cases hr
    rfl
  | 0, is, b, c :: r, is', b', t', hr => by
    rw [moreRepetitions.eq_def] at hr
    cases hr
  | n + 1, is, b, c :: r, is', b', t', hr => by
    rw [moreRepetitions.eq_def] at hr
    dsimp only at hr
    split at hr
    · cases hr
    · split at hr
      · exact moreRepetitions_end h n _ _ _ _ _ _ hr
      · next e b1 he =>
        split at hr
        · next hee => subst hee; exact absurd he (plain_repetition h _ _ _)
        · cases hr

theorem concatenation_end {element : Base → Text → Result Nat} (h : Plain element) {n : Nat} {b : Base} {t : Text} {i : Nat} {b' : Base}
    {t' : Text} (hr : parseConcatenation element n b t = .ok (i, b', t')) : t' = [] := by
  unfold parseConcatenation at hr
  split at hr
  · cases hr
  · split at hr
    · cases hr
    · next hm => cases hr; exact moreRepetitions_end h _ _ _ _ _ _ _ hm
    · next hm => cases hr; exact moreRepetitions_end h _ _ _ _ _ _ _ hm

/-- An alternation is read to the end of the text, or not at all. -/
theorem alternation_end {element : Base → Text → Result Nat} (h : Plain element) {n : Nat} {b : Base} {t : Text} {i : Nat} {b' : Base}
    {t' : Text} (hr : parseAlternation element n b t = .ok (i, b', t')) : t' = [] := by
  unfold parseAlternation at hr
  split at hr
  · cases hr
  · next hc =>
    have := concatenation_end h hc
    subst this
    rw [moreConcatenations.eq_def] at hr
    dsimp only at hr
    cases hr
    rfl

/-- No rule is read, of whatever text. -/
theorem rule_fails {element : Base → Text → Result Nat} (h : Plain element) (n : Nat) (b : Base) (t : Text) (r : Unit × Base × Text) :
    parseRule element n b t ≠ .ok r := by
  intro hr
  unfold parseRule at hr
  split at hr
  · cases hr
  · split at hr
    · cases hr
    · split at hr
      · cases hr
      · next ha =>
        have := alternation_end h ha
        subst this
        simp [parseCWspRepeat, parseCNl, parseCRLF] at hr

/-- C340 is refuted: a text that is read as a list of rules has none — reading it leaves the rule base as it was — and every text
that starts with the name of a rule is refused. -/
theorem abnf_text_refuted {element : Base → Text → Result Nat} (h : Plain element) : ∀ (n : Nat) (more : Bool) (b : Base) (t : Text)
    (b' : Base) (t' : Text), parseRulelist element n more b t = .ok ((), b', t') → b' = b ∧ ∀ c, t.head? = some c → isAlpha c = false
  | n, more, b, [], b', t', hr => by
    rw [parseRulelist.eq_def] at hr
    dsimp only at hr
    split at hr
    · cases hr; exact ⟨rfl, fun _ h => nomatch h⟩
    · cases hr
  | 0, more, b, c :: r, b', t', hr => by
    rw [parseRulelist.eq_def] at hr
    cases hr
  | n + 1, more, b, c :: r, b', t', hr => by
    rw [parseRulelist.eq_def] at hr
    dsimp only at hr
    split at hr
    · split at hr
      · cases hr
      · next hp => exact absurd hp (rule_fails h _ _ _ _)
    · next ha =>
      split at hr
      · cases hr
      · refine ⟨(abnf_text_refuted h n true b _ b' t' hr).1, ?_⟩
        intro d hd
        cases hd
        simpa using ha

/-- `ParseElement` of literals alone (abnf:1021-1034). -/
def literalElement (b : Base) (t : Text) : Result Nat :=
  match t with
  | 34 :: r =>
    match r.dropWhile fun c => c != 34 && 32 ≤ c && c ≤ 126 with
    | 34 :: r' =>
      let l := Rule.literal (r.takeWhile fun c => c != 34 && 32 ≤ c && c ≤ 126)
      .ok ((b.addRule l).2, (b.addRule l).1, r')
    | _ => .error (.syntax, b)
  | _ => .error (.syntax, b)

theorem literal_plain : Plain literalElement := by
  intro b t b'
  unfold literalElement
  repeat' split
  all_goals exact fun h => by cases h

/-- The text `a="x"`, CR, LF is refused, though `"x" "y"` is read as a concatenation when it ends the text. -/
theorem abnf_text_sample :
    parseRulelist literalElement 20 false empty [97, 61, 34, 120, 34, 13, 10] =
      .error (.syntax, ⟨[(none, .literal [120])], []⟩) ∧
    parseAlternation literalElement 20 empty [34, 120, 34, 32, 34, 121, 34] =
      .ok (2, ⟨[(none, .literal [120]), (none, .literal [121]), (none, .seq [0, 1])], []⟩, []) := by
  refine ⟨?_, ?_⟩ <;> rfl

end Verif.Props.AbnfText
