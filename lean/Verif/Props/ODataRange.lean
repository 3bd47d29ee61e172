import Verif.Spec.ODataRange
import Verif.Props.ODataExpr

/-!
# No literal is read with a value outside its type

For every text: what is read as a literal, alone or in an expression, has a value of its type.
-/

namespace Verif.Props

open Verif Verif.OData Verif.Spec.OData

theorem below_of_exceeds {m : Nat} {e : Int} {bound : Nat} (h : exceeds m e bound = false) : Below m e bound := by
  unfold exceeds at h
  constructor
  · intro he
    rw [if_pos he] at h
    simpa using h
  · intro he
    rw [if_neg (by omega)] at h
    simpa using h

theorem integer_range {digits bits : Nat} {n : Numeric} {v : Int} (h : setInteger digits bits n = .ok v) :
    -(2 ^ bits : Nat) ≤ v ∧ v ≤ (2 ^ bits : Nat) - 1 := by
  unfold setInteger at h
  split at h
  · cases h
  · split at h
    · cases h
    · next hb =>
      injection h with h
      subst h
      omega

theorem toDouble_below (x : Flt) : FloatBelow (toDouble x) (2 ^ 1024 - 2 ^ 970) := by
  intro neg m e h
  cases x with
  | nan => cases h
  | inf b => cases h
  | fin n' m' e' =>
    simp only [toDouble] at h
    split at h
    · cases h
    · next hx =>
      injection h with h1 h2 h3
      subst h2; subst h3
      exact below_of_exceeds (by simpa using hx)

theorem special_below {neg nan : Bool} {x : Flt} {b : Nat} (h : setSpecial neg nan = .ok x) : FloatBelow x b := by
  unfold setSpecial at h
  intro n m e hx
  subst hx
  split at h
  · split at h <;> cases h
  · cases h

theorem double_range {T : Tables} {n : Numeric} {v : Lit} (h : setDouble n = .ok v) : InRange T v := by
  unfold setDouble at h
  split at h
  · next nan hn =>
    cases hs : setSpecial n.neg nan with
    | error e => rw [hs] at h; cases h
    | ok x =>
      rw [hs] at h
      injection h with h
      subst h
      exact special_below hs
  · split at h
    · cases h
    · injection h with h
      subst h
      exact toDouble_below _

theorem singleRange_range {T : Tables} {x : Flt} {v : Lit} (h : singleRange x = .ok v) : InRange T v := by
  cases x with
  | nan => injection h with h; subst h; intro n m e hx; cases hx
  | inf b => injection h with h; subst h; intro n m e hx; cases hx
  | fin neg m e =>
    simp only [singleRange] at h
    split at h
    · cases h
    · next hx =>
      injection h with h
      subst h
      intro n' m' e' he
      injection he with h1 h2 h3
      subst h2; subst h3
      exact below_of_exceeds (by simpa using hx)

theorem single_range {T : Tables} {n : Numeric} {v : Lit} (h : setSingle n = .ok v) : InRange T v := by
  unfold setSingle at h
  split at h
  · next nan hn =>
    cases hs : setSpecial n.neg nan with
    | error e => rw [hs] at h; cases h
    | ok x =>
      rw [hs] at h
      injection h with h
      subst h
      exact special_below hs
  · split at h
    · split at h
      · cases h
      · split at h
        · split at h
          · cases h
          · exact singleRange_range h
        · split at h
          · cases h
          · exact singleRange_range h
    · split at h
      · cases h
      · exact singleRange_range h

theorem takeWhile_all (p : Char → Bool) (s : Str) : ∀ c ∈ s.takeWhile p, p c = true := by
  induction s with
  | nil => intro c hc; cases hc
  | cons a t ih =>
    intro c hc
    rw [List.takeWhile_cons] at hc
    split at hc
    · next ha =>
      rcases List.mem_cons.mp hc with rfl | hc
      · exact ha
      · exact ih c hc
    · cases hc

theorem upTo_digits (p : Char → Bool) : ∀ (n : Nat) (s : Str), (∀ c ∈ (upTo p n s).1, p c = true) ∧ (upTo p n s).1.length ≤ n
  | 0, s => by simp [upTo]
  | n + 1, [] => by simp [upTo]
  | n + 1, a :: t => by
    have ih := upTo_digits p n t
    unfold upTo
    split
    · next ha =>
      refine ⟨?_, ?_⟩
      · intro c hc
        rcases List.mem_cons.mp hc with rfl | hc
        · exact ha
        · exact ih.1 c hc
      · simpa using ih.2
    · simp

/-- The digits of a number that has been read. -/
def DigitsOnly (n : Numeric) : Prop :=
  (∀ c ∈ n.l, Py.isDigit c = true) ∧ ∀ c ∈ n.r.getD [], Py.isDigit c = true

theorem parsePoint_digits (s : Str) : ∀ c ∈ (parsePoint s).1.getD [], Py.isDigit c = true := by
  unfold parsePoint
  split
  · exact takeWhile_all _ _
  · intro c hc; cases hc

theorem numeric_digits {s t : Str} {n : Numeric} (h : parseNumeric s = some (n, t)) : DigitsOnly n := by
  unfold parseNumeric at h
  dsimp only at h
  split at h
  · injection h with h; injection h with h _; subst h
    exact ⟨nofun, nofun⟩
  · split at h
    · injection h with h; injection h with h _; subst h
      exact ⟨nofun, nofun⟩
    · unfold parseUnsigned at h
      dsimp only at h
      split at h
      · cases h
      · injection h with h; injection h with h _; subst h
        exact ⟨takeWhile_all _ _, parsePoint_digits _⟩

theorem decimal_range {T : Tables} {n : Numeric} {v : Lit} (hd : DigitsOnly n) (h : setDecimal n = .ok v) : InRange T v := by
  unfold setDecimal at h
  split at h
  · cases h
  · next hn =>
    injection h with h
    subst h
    have h1 : n.l.length ≤ 29 := by omega
    have h2 : (n.r.getD []).length ≤ 29 := by omega
    refine ⟨h2, ?_⟩
    have hall : ∀ c ∈ n.l ++ n.r.getD [], Py.isDigit c = true := by
      intro c hc
      rcases List.mem_append.mp hc with hc | hc
      · exact hd.1 c hc
      · exact hd.2 c hc
    refine Nat.lt_of_lt_of_le (digitsVal_lt hall) (Nat.pow_le_pow_right (by decide) ?_)
    rw [List.length_append]
    omega

theorem number_range {T : Tables} {s r : Str} {v : Lit} (h : parseNumber s = .ok (some v, r)) : InRange T v := by
  have hi32 : ∀ {n : Numeric} {t : Str}, (setInteger 10 31 n).map (fun v => (some (Lit.int32 v), t)) = .ok (some v, r) →
      InRange T v := by
    intro n t h
    cases hs : setInteger 10 31 n with
    | error e => rw [hs] at h; cases h
    | ok x =>
      rw [hs] at h
      injection h with h
      injection h with h _
      injection h with h
      subst h
      have := integer_range hs
      show -2147483648 ≤ x ∧ x ≤ 2147483647
      omega
  unfold parseNumber at h
  split at h
  · cases h
  · next n t hn =>
    have hd := numeric_digits hn
    split at h
    · next c u =>
      split at h
      · cases hs : setDouble n with
        | error e => rw [hs] at h; cases h
        | ok x =>
          rw [hs] at h; injection h with h; injection h with h _; injection h with h; subst h
          exact double_range hs
      · split at h
        · cases hs : setSingle n with
          | error e => rw [hs] at h; cases h
          | ok x =>
            rw [hs] at h; injection h with h; injection h with h _; injection h with h; subst h
            exact single_range hs
        · split at h
          · cases hs : setDecimal n with
            | error e => rw [hs] at h; cases h
            | ok x =>
              rw [hs] at h; injection h with h; injection h with h _; injection h with h; subst h
              exact decimal_range hd hs
          · split at h
            · cases hs : setInteger 19 63 n with
              | error e => rw [hs] at h; cases h
              | ok x =>
                rw [hs] at h; injection h with h; injection h with h _; injection h with h; subst h
                have := integer_range hs
                show -9223372036854775808 ≤ x ∧ x ≤ 9223372036854775807
                omega
            · exact hi32 h
    · exact hi32 h

theorem hexVal_hex {c : Char} (h : Py.isHex c = true) : Py.hexVal c < 16 := by
  simp only [Py.isHex, Bool.or_eq_true, Bool.and_eq_true, decide_eq_true_eq] at h
  unfold Py.hexVal
  repeat' split
  all_goals omega

theorem hexValue_lt_aux : ∀ (d : Str) (a : Nat), (∀ c ∈ d, Py.isHex c = true) →
    d.foldl (fun acc c => acc * 16 + Py.hexVal c) a < (a + 1) * 16 ^ d.length
  | [], a, _ => by simp
  | c :: d, a, h => by
    have h1 := hexValue_lt_aux d (a * 16 + Py.hexVal c) (fun x hx => h x (by simp [hx]))
    have h2 := hexVal_hex (h c (by simp))
    rw [List.foldl_cons, List.length_cons, Nat.pow_succ]
    refine Nat.lt_of_lt_of_le h1 ?_
    rw [Nat.mul_comm (16 ^ d.length) 16, ← Nat.mul_assoc]
    exact Nat.mul_le_mul_right _ (by omega)

theorem hexValue_lt {d : Str} (h : ∀ c ∈ d, Py.isHex c = true) : Py.digitsVal 16 d < 16 ^ d.length := by
  have := hexValue_lt_aux d 0 h
  simpa [Py.digitsVal] using this

theorem bytesOf_range : ∀ {s : Str} {b : List Nat}, (∀ c ∈ s, Py.isHex c = true) → bytesOf s = .ok b → ∀ n ∈ b, n < 256 := by
  intro s
  fun_induction bytesOf s with
  | case1 => intro b _ h; injection h with h; subst h; intro n hn; cases hn
  | case2 => intro b _ h; cases h
  | case3 x y t ih =>
    intro b hs h
    cases hb : bytesOf t with
    | error e => rw [hb] at h; cases h
    | ok r =>
      rw [hb] at h
      injection h with h
      subst h
      intro n hn
      rcases List.mem_cons.mp hn with rfl | hn
      · have := hexValue_lt (d := [x, y]) (fun c hc => hs c (by simp at hc ⊢; rcases hc with h | h <;> simp [h]))
        simpa using this
      · exact ih (fun c hc => hs c (by simp [hc])) hb n hn

theorem binary_range {T : Tables} {s r : Str} {v : Lit} (h : parseBinary s = .ok (v, r)) : InRange T v := by
  unfold parseBinary at h
  cases hb : bytesOf (s.takeWhile Py.isHex) with
  | error e => rw [hb] at h; cases h
  | ok b =>
    rw [hb] at h
    injection h with h
    injection h with h _
    subst h
    exact bytesOf_range (takeWhile_all _ _) hb

theorem range_bind_ok {α β : Type} {x : Except Fault α} {f : α → Except Fault β} {b : β} (h : (x >>= f) = .ok b) :
    ∃ a, x = .ok a ∧ f a = .ok b := by
  cases x with
  | error e => cases h
  | ok a => exact ⟨a, rfl, h⟩

theorem requireHex_digits {k : Nat} {s d t : Str} (h : requireHex k s = .ok (d, t)) :
    (∀ c ∈ d, Py.isHex c = true) ∧ d.length = k := by
  unfold requireHex at h
  split at h
  · next r hr =>
    injection h with h
    subst h
    unfold exactly at hr
    split at hr
    · next hl =>
      injection hr with hr
      have h1 : d = (upTo Py.isHex k s).1 := by rw [hr]
      subst h1
      exact ⟨(upTo_digits _ _ _).1, hl⟩
    · cases hr
  · cases h

theorem guid_range {T : Tables} {s r : Str} {v : Lit} (h : parseGuid s = .ok (v, r)) : InRange T v := by
  unfold parseGuid at h
  obtain ⟨⟨a, s1⟩, ha, h⟩ := range_bind_ok h
  obtain ⟨s2, -, h⟩ := range_bind_ok h
  obtain ⟨⟨b, s3⟩, hb, h⟩ := range_bind_ok h
  obtain ⟨s4, -, h⟩ := range_bind_ok h
  obtain ⟨⟨c, s5⟩, hc, h⟩ := range_bind_ok h
  obtain ⟨s6, -, h⟩ := range_bind_ok h
  obtain ⟨⟨d, s7⟩, hd, h⟩ := range_bind_ok h
  have a1 := requireHex_digits ha
  have b1 := requireHex_digits hb
  have c1 := requireHex_digits hc
  have d1 := requireHex_digits hd
  have fin : ∀ {w : Str}, (∀ x ∈ w, Py.isHex x = true) → w.length = 32 → Py.digitsVal 16 w < 2 ^ 128 := by
    intro w hw hl
    have := hexValue_lt hw
    rw [hl] at this
    exact this
  dsimp only at h
  split at h
  · obtain ⟨⟨e, s8⟩, he, h⟩ := range_bind_ok h
    have e1 := requireHex_digits he
    injection h with h
    injection h with h _
    subst h
    refine fin ?_ ?_
    · intro x hx
      simp only [List.mem_append] at hx
      rcases hx with (((hx | hx) | hx) | hx) | hx
      · exact a1.1 x hx
      · exact b1.1 x hx
      · exact c1.1 x hx
      · exact d1.1 x hx
      · exact e1.1 x hx
    · simp only [List.length_append, a1.2, b1.2, c1.2, d1.2, e1.2]
  · obtain ⟨⟨e, s8⟩, he, h⟩ := range_bind_ok h
    have e1 := requireHex_digits he
    injection h with h
    injection h with h _
    subst h
    refine fin ?_ ?_
    · intro x hx
      simp only [List.mem_append] at hx
      rcases hx with ((((hx | hx) | hx) | hx) | hx) | hx
      · exact a1.1 x hx
      · exact b1.1 x hx
      · exact c1.1 x hx
      · have : x = 'F' := by simpa using hx
        subst this
        decide
      · exact d1.1 x hx
      · exact e1.1 x hx
    · simp [a1.2, b1.2, c1.2, d1.2, e1.2]

theorem clockOk_time {h m s : Nat} {f : Str} (hc : clockOk h m s f = true) : TimeOfDay h m s f := by
  unfold clockOk Cal.checkTime at hc
  simp only [bind, Except.bind] at hc
  split at hc
  · cases hc
  · next hk =>
    repeat' split at hk
    all_goals first | cases hk | skip
    by_cases h24 : h = 24
    · right
      refine ⟨h24, by omega, by omega, ?_⟩
      intro c hcf
      simp only [h24, beq_self_eq_true, Bool.true_and, Bool.not_eq_true', List.any_eq_false] at hc
      simpa using hc c hcf
    · left
      omega

theorem seconds_fraction {s r f : Str} {n : Nat} (h : parseSeconds s = .ok (some ((n, f), r))) : Fraction f := by
  unfold parseSeconds at h
  split at h
  · injection h with h; injection h with h; injection h with h _; injection h with _ h; subst h
    exact ⟨nofun, by decide⟩
  · split at h
    · cases h
    · split at h
      · injection h with h; injection h with h; injection h with h _; injection h with _ h; subst h
        exact ⟨nofun, by decide⟩
      · split at h
        · cases h
        · injection h with h; injection h with h; injection h with h _; injection h with _ h; subst h
          exact upTo_digits _ _ _

theorem clock_fraction {s r f : Str} {h m n : Nat} (hc : parseClock s = .ok (some ((h, m, n, f), r))) : Fraction f := by
  unfold parseClock at hc
  split at hc
  · cases hc
  · split at hc
    · cases hc
    · split at hc
      · cases hc
      · next hour _ _ minute s' _ =>
        cases hs : parseSeconds s' with
        | error e => rw [hs] at hc; cases hc
        | ok o =>
          rw [hs] at hc
          cases o with
          | none => cases hc
          | some o =>
            obtain ⟨⟨sec, fr⟩, rest⟩ := o
            injection hc with hc
            injection hc with hc
            simp only [Prod.mk.injEq] at hc
            obtain ⟨⟨-, -, -, rfl⟩, -⟩ := hc
            exact seconds_fraction hs

theorem time_range {T : Tables} {s r : Str} {v : Lit} (h : parseTime s = .ok (v, r)) : InRange T v := by
  unfold parseTime at h
  obtain ⟨o, ho, h⟩ := range_bind_ok h
  split at h
  · cases h
  · next hour minute second frac s' =>
    split at h
    · next hk =>
      injection h with h
      injection h with h _
      subst h
      exact ⟨clockOk_time hk, clock_fraction ho⟩
    · cases h

theorem calendar_range {s r : Str} {y m d : Nat} (h : parseCalendar s = some ((y, m, d), r)) : y < 10000 := by
  unfold parseCalendar at h
  cases he : exactly Py.isDigit 4 s with
  | none => rw [he] at h; cases h
  | some p =>
    obtain ⟨yr, s1⟩ := p
    rw [he] at h
    have hy : Py.digitsVal 10 yr < 10000 := by
      unfold exactly at he
      split at he
      · next hl =>
        injection he with he
        have h1 : yr = (upTo Py.isDigit 4 s).1 := by rw [he]
        subst h1
        have := digitsVal_lt (upTo_digits Py.isDigit 4 s).1
        rw [hl] at this
        exact this
      · cases he
    replace h := show (some (yr, s1)).bind _ = _ from h
    rw [Option.bind_some] at h
    obtain ⟨s2, -, h⟩ := Option.bind_eq_some_iff.mp h
    obtain ⟨⟨mo, s3⟩, -, h⟩ := Option.bind_eq_some_iff.mp h
    obtain ⟨s4, -, h⟩ := Option.bind_eq_some_iff.mp h
    obtain ⟨⟨da, s5⟩, -, h⟩ := Option.bind_eq_some_iff.mp h
    obtain ⟨s6, -, h⟩ := Option.bind_eq_some_iff.mp h
    cases h
    exact hy

theorem dateTime_range {T : Tables} {s r : Str} {v : Lit} (h : parseDateTime s = .ok (v, r)) : InRange T v := by
  unfold parseDateTime at h
  split at h
  · cases h
  · next year month day s' hcal =>
    have hy := calendar_range hcal
    obtain ⟨o, ho, h⟩ := range_bind_ok h
    split at h
    · cases h
    · next hour minute second frac s'' =>
      split at h
      · cases h
      · next d hd =>
        split at h
        · next hk =>
          injection h with h
          injection h with h _
          subst h
          refine ⟨?_, clockOk_time hk, clock_fraction ho⟩
          unfold Cal.pCheck at hd
          dsimp only at hd
          split at hd
          · cases hd
          · split at hd
            · cases hd
            · split at hd
              · cases hd
              · split at hd
                · cases hd
                · next hm =>
                  split at hd
                  · cases hd
                  · next hday =>
                    injection hd with hd
                    have h1 : 1 ≤ month := by omega
                    have h2 : month ≤ 12 := by omega
                    have hms := month_size (y := year) h1 h2
                    refine ⟨year, month, day, ?_, ?_, ?_, h1, h2, ?_, ?_⟩
                    · rw [← hd]; simp
                    · omega
                    · omega
                    · omega
                    · have hq : ((year : Int) / 100) * 100 + (year : Int) % 100 = ((year / 100 : Nat) : Int) * 100 + ((year % 100 : Nat) : Int) := by
                        omega
                      first
                        | (rw [hms] at hday; omega)
                        | (rw [hq, hms] at hday; omega)
        · cases h

theorem quoted_range {T : Tables} {p : Str → Except Fault (Lit × Str)} {s r : Str} {v : Lit}
    (hp : ∀ {s r : Str} {v : Lit}, p s = .ok (v, r) → InRange T v) (h : quoted p s = .ok (some v, r)) : InRange T v := by
  unfold quoted at h
  obtain ⟨s1, -, h⟩ := range_bind_ok h
  obtain ⟨⟨w, s2⟩, hw, h⟩ := range_bind_ok h
  obtain ⟨s3, -, h⟩ := range_bind_ok h
  injection h with h
  injection h with h _
  injection h with h
  subst h
  exact hp hw

theorem offset_range {T : Tables} {s r : Str} {v : Lit} (h : parseOffset T s = .ok (some v, r)) : InRange T v := by
  unfold parseOffset at h
  obtain ⟨s1, -, h⟩ := range_bind_ok h
  dsimp only at h
  obtain ⟨s2, -, h⟩ := range_bind_ok h
  split at h
  · next ho =>
    injection h with h
    injection h with h _
    injection h with h
    subst h
    refine ⟨?_, ho⟩
    intro hq
    have := takeWhile_all _ _ _ hq
    simp at this
  · cases h

/-- What is read as a literal at the beginning of any text has a value of its type. -/
theorem literal_prefix_in_range {T : Tables} {s r : Str} {v : Lit} (h : uriLiteral T s = .ok (some v, r)) : InRange T v := by
  unfold uriLiteral at h
  split at h
  · next name rest _ =>
    unfold namedLiteral at h
    split at h
    · injection h with h; injection h with h _; injection h with h; subst h; trivial
    · injection h with h; injection h with h _; injection h with h; subst h; trivial
    · injection h with h; injection h with h _; injection h with h; subst h; trivial
    · exact offset_range h
    · exact quoted_range dateTime_range h
    · exact quoted_range time_range h
    · exact quoted_range binary_range h
    · injection h with h; injection h with h _; injection h with h; subst h; intro n m e hx; cases hx
    · injection h with h; injection h with h _; injection h with h; subst h; intro n m e hx; cases hx
    · injection h with h; injection h with h _; injection h with h; subst h; intro n m e hx; cases hx
    · injection h with h; injection h with h _; injection h with h; subst h; intro n m e hx; cases hx
    · exact quoted_range guid_range h
    · cases h
  · split at h
    · next t _ =>
      cases hs : stringLoop t with
      | error e => rw [hs] at h; cases h
      | ok x => rw [hs] at h; injection h with h; injection h with h _; injection h with h; subst h; trivial
    · split at h
      · exact number_range h
      · cases h
    · cases h

/-- Whatever text is given, it is refused or read as a value of its type. -/
theorem literal_in_range {T : Tables} {s : Str} {v : Lit} (h : parseURILiteral T s = .ok v) : InRange T v := by
  unfold parseURILiteral at h
  split at h
  · cases h
  · next w hw =>
    injection h with h
    subst h
    exact literal_prefix_in_range hw
  · cases h

theorem literalsOf_append (a b : List Expr) : literalsOf (a ++ b) = literalsOf a ++ literalsOf b := by
  induction a with
  | nil => rfl
  | cons x t ih => rw [List.cons_append, literalsOf, literalsOf, ih, List.append_assoc]

/-- The literals of the expression are in the range of their types. -/
def Ranged (T : Tables) (e : Expr) : Prop := ∀ v ∈ literals e, InRange T v

/-- The same for several expressions. -/
def RangedAll (T : Tables) (es : List Expr) : Prop := ∀ v ∈ literalsOf es, InRange T v

theorem ranged_open {T : Tables} (o : Open) : Ranged T o.expr ↔ RangedAll T o.args := by
  unfold Open.expr Ranged RangedAll
  split
  · rw [literals]
  · rw [literals]

theorem rangedAll_snoc {T : Tables} {es : List Expr} {e : Expr} (h : RangedAll T es) (he : Ranged T e) :
    RangedAll T (es ++ [e]) := by
  intro v hv
  rw [literalsOf_append] at hv
  rcases List.mem_append.mp hv with hv | hv
  · exact h v hv
  · rw [literalsOf, literalsOf, List.append_nil] at hv
    exact he v hv

theorem ranged_absent {T : Tables} : Ranged T .absent := by
  intro v hv
  rw [literals] at hv
  · cases hv
  all_goals intros; contradiction

theorem ranged_take {T : Tables} {o : Open} {x : Option Expr} (h : RangedAll T o.args) (hx : ∀ e, x = some e → Ranged T e) :
    RangedAll T (o.take x).args := by
  refine rangedAll_snoc h ?_
  cases x with
  | none => exact ranged_absent
  | some e => exact hx e rfl

theorem ranged_give {T : Tables} {o : Open} {x : Option Expr} (h : RangedAll T o.args) (hx : ∀ e, x = some e → Ranged T e) :
    RangedAll T (o.give x).args := by
  cases x with
  | none => exact h
  | some e => exact rangedAll_snoc h (hx e rfl)

theorem ranged_bind {T : Tables} : ∀ {ops : List Open} {x : Option Expr} {r : Open}, (∀ o ∈ ops, RangedAll T o.args) →
    (∀ e, x = some e → Ranged T e) → RangedAll T r.args → ∀ o ∈ bindOp ops x r, RangedAll T o.args := by
  intro ops
  induction ops with
  | nil =>
    intro x r _ hx hr o ho
    rw [bindOp] at ho
    have : o = r.give x := by simpa using ho
    subst this
    exact ranged_give hr hx
  | cons l rest ih =>
    intro x r hops hx hr o ho
    rw [bindOp] at ho
    split at ho
    · rcases List.mem_cons.mp ho with rfl | ho
      · exact ranged_give hr hx
      · exact hops o ho
    · refine ih (fun o ho => hops o (List.mem_cons_of_mem _ ho)) ?_ hr o ho
      intro e he
      injection he with he
      subst he
      exact (ranged_open _).mpr (ranged_take (hops l (List.mem_cons_self ..)) hx)

theorem ranged_finish {T : Tables} : ∀ {ops : List Open} {e : Expr}, (∀ o ∈ ops, RangedAll T o.args) → Ranged T e →
    Ranged T (finish ops e) := by
  intro ops
  induction ops with
  | nil => intro e _ he; exact he
  | cons l rest ih =>
    intro e hops he
    rw [finish]
    refine ih (fun o ho => hops o (List.mem_cons_of_mem _ ho)) ?_
    refine (ranged_open _).mpr (ranged_take (hops l (List.mem_cons_self ..)) ?_)
    intro e' he'
    injection he' with he'
    subst he'
    exact he

theorem ranged_nil {T : Tables} : RangedAll T [] := by
  intro v hv
  rw [literalsOf] at hv
  cases hv

theorem ranged_nextOp {T : Tables} {s t : Str} {r : Open} (h : nextOp T s = (some r, t)) : RangedAll T r.args := by
  unfold nextOp at h
  split at h
  · cases h; exact ranged_nil
  · split at h
    · cases h
    · split at h
      · split at h
        · cases h
        · cases h; exact ranged_nil
      · cases h

/-- What an operand position holds has only literals of their types. -/
def RangedOperand (T : Tables) : Operand → Prop
  | .value e => Ranged T e
  | .operator o => RangedAll T o.args
  | .nothing => True

theorem ranged_operand {T : Tables} {e : Expr} (h : Ranged T e) : RangedOperand T (operand e) := by
  cases e with
  | unary op args =>
    intro v hv
    exact h v (by rw [literals]; exact hv)
  | _ => exact h

theorem ranged_parse {T : Tables} : ∀ (n : Nat),
    (∀ ops s e r, (∀ o ∈ ops, RangedAll T o.args) → common T n ops s = .ok (some e, r) → Ranged T e) ∧
    (∀ s o r, term T n s = .ok (o, r) → RangedOperand T o) ∧
    (∀ s es r, arguments T n s = .ok (es, r) → RangedAll T es) ∧
    (∀ op s e r, castLike T n op s = .ok (e, r) → Ranged T e)
  | 0 => ⟨fun _ _ _ _ _ h => (by simp only [common] at h; cases h), fun _ _ _ h => (by simp only [term] at h; cases h),
      fun _ _ _ h => (by simp only [arguments] at h; cases h), fun _ _ _ _ h => (by simp only [castLike] at h; cases h)⟩
  | n + 1 => by
    obtain ⟨hc, ht, ha, hk⟩ := ranged_parse (T := T) n
    have hc' : ∀ {s e r}, common T n [] s = .ok (some e, r) → Ranged T e := fun h => hc _ _ _ _ (by intro o ho; cases ho) h
    refine ⟨?_, ?_, ?_, ?_⟩
    · intro ops s e r hops h
      rw [common] at h
      split at h
      · cases h
      · split at h <;> cases h
      · next o s' hterm =>
        exact hc _ _ _ _ (ranged_bind hops (by intro e he; cases he) (ht _ _ _ hterm)) h
      · next e' s' hterm =>
        have he' : Ranged T e' := ht _ _ _ hterm
        split at h
        · cases h
          exact ranged_finish hops he'
        · next r' s'' hn =>
          exact hc _ _ _ _ (ranged_bind hops (by intro e he; cases he; exact he') (ranged_nextOp hn)) h
    · intro s o r h
      rw [term] at h
      split at h
      · cases h
      · next v s' hv =>
        cases h
        intro w hw
        rw [literals] at hw
        have : w = v := by simpa using hw
        subst this
        exact literal_prefix_in_range hv
      · split at h
        · next name t hid =>
          split at h
          · split at h
            · cases h
            · cases h; exact ranged_nil
          · split at h
            · cases hq : castLike T n .isof (wsp t) with
              | error e => rw [hq] at h; cases h
              | ok p => rw [hq] at h; cases h; exact hk _ _ _ _ hq
            · split at h
              · cases hq : castLike T n .cast (wsp t) with
                | error e => rw [hq] at h; cases h
                | ok p => rw [hq] at h; cases h; exact hk _ _ _ _ hq
              · split at h
                · next u hu =>
                  split at h
                  · cases h
                  · next m hm =>
                    cases hq : arguments T n u with
                    | error e => rw [hq] at h; cases h
                    | ok p =>
                      rw [hq] at h
                      cases h
                      intro v hv
                      rw [literals] at hv
                      exact ha _ _ _ hq v hv
                · cases h
                  intro v hv
                  rw [literals] at hv
                  · cases hv
                  all_goals intros; contradiction
        · split at h
          · split at h
            · cases h
            · cases h
            · next e t hq =>
              cases h
              exact ranged_operand (hc' hq)
          · cases h; exact ranged_nil
          · cases h; trivial
    · intro s es r h
      rw [arguments] at h
      split at h
      · cases h
      · cases h
      · next e s' hq =>
        have he := hc' hq
        split at h
        · next t ht' =>
          cases hr : arguments T n t with
          | error e => rw [hr] at h; cases h
          | ok p =>
            rw [hr] at h
            cases h
            intro v hv
            rw [literalsOf] at hv
            rcases List.mem_append.mp hv with hv | hv
            · exact he v hv
            · exact ha _ _ _ hr v hv
        · cases h
          exact rangedAll_snoc ranged_nil he
        · cases h
    · intro op s e r h
      rw [castLike] at h
      split at h
      · split at h
        · cases h
        · cases h
        · next e' t hq =>
          have he := hc' hq
          split at h
          · split at h
            · cases h
              intro v hv
              rw [literals] at hv
              exact rangedAll_snoc ranged_nil he v hv
            · cases h
          · split at h
            · cases h
            · cases h
            · next f u' hf =>
              have hf := hc' hf
              split at h
              · cases h
                intro v hv
                rw [literals] at hv
                exact rangedAll_snoc (rangedAll_snoc ranged_nil he) hf v hv
              · cases h
      · cases h

/-- Whatever text is read as an expression, every literal in it has a value of its type. -/
theorem expression_literals_in_range {T : Tables} {s : Str} {e : Expr} (h : parseExpr T s = .ok e) :
    ∀ v ∈ literals e, InRange T v := by
  unfold parseExpr at h
  split at h
  · cases h
  · next e' he =>
    cases h
    exact (ranged_parse _).1 _ _ _ _ (by intro o ho; cases ho) he
  · cases h

/-- The last values of a type are read, and the next ones are refused; so are dates that do not exist. -/
theorem range_hypotheses :
    parseURILiteral plainTables "2147483647".toList = .ok (.int32 2147483647) ∧
    parseURILiteral plainTables "-2147483648".toList = .ok (.int32 (-2147483648)) ∧
    parseURILiteral plainTables "2147483648".toList = .error .valueError ∧
    parseURILiteral plainTables "-2147483649".toList = .error .valueError ∧
    parseURILiteral plainTables "9223372036854775807L".toList = .ok (.int64 9223372036854775807) ∧
    parseURILiteral plainTables "9223372036854775808L".toList = .error .valueError ∧
    parseURILiteral plainTables "datetime'2013-02-29T00:00'".toList = .error .valueError ∧
    parseURILiteral plainTables "time'24:00:01'".toList = .error .valueError ∧
    (∃ e, parseExpr plainTables "a add 5 eq 7L".toList = .ok e ∧ literals e = [.int32 5, .int64 7]) := by
  refine ⟨by decide +kernel, by decide +kernel, by decide +kernel, by decide +kernel, by decide +kernel, by decide +kernel,
    by decide +kernel, by decide +kernel,
    .binary .eq [.binary .add [.prop ['a'], .lit (.int32 5)], .lit (.int64 7)], by decide +kernel, by decide +kernel⟩

end Verif.Props
