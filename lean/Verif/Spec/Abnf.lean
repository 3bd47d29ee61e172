import Verif.Model.Abnf

/-!
# What ABNF means

The strings of a rule, as RFC 2234 describes them (sections 2 and 3), independently of the loops of the program.
-/

namespace Verif.Spec.Abnf
open Verif Verif.Abnf

/-- The same character, or the same letter in another case (RFC 2234, 2.3: strings of letters ignore case). -/
def SameLetter (c d : Nat) : Prop := c = d ∨ (65 ≤ c ∧ c ≤ 90 ∧ d = c + 32) ∨ (65 ≤ d ∧ d ≤ 90 ∧ c = d + 32)

/-- The strings of the rule with a number, in a grammar. -/
inductive Derives (look : Nat → Option Rule) : Nat → Text → Prop
  | terminal {i s} : look i = some (.terminal s) → Derives look i s
  | literal {i} {ps : List (Nat × Nat)} : look i = some (.literal (ps.map Prod.fst)) → (∀ p ∈ ps, SameLetter p.1 p.2) →
      Derives look i (ps.map Prod.snd)
  | range {i lo hi c} : look i = some (.range lo hi) → lo ≤ c → c ≤ hi → Derives look i [c]
  | seq {i} {ps : List (Nat × Text)} : look i = some (.seq (ps.map Prod.fst)) → (∀ p ∈ ps, Derives look p.1 p.2) →
      Derives look i (ps.map Prod.snd).flatten
  | alt {i rs r s} : look i = some (.alt rs) → r ∈ rs → Derives look r s → Derives look i s
  | rep {i min max r} {ss : List Text} : look i = some (.rep min max r) → (∀ s ∈ ss, Derives look r s) →
      min ≤ ss.length → (∀ m, max = some m → ss.length ≤ m) → Derives look i ss.flatten
  | alias {i r s} : look i = some (.alias r) → Derives look r s → Derives look i s

/-- Grammars make sense: alternatives have at least one member, and no repetition has more at least than at most. -/
structure Sensible (look : Nat → Option Rule) : Prop where
  alt : ∀ i rs, look i = some (.alt rs) → rs ≠ []
  rep : ∀ i min m r, look i = some (.rep min (some m) r) → min ≤ m

end Verif.Spec.Abnf
