import Verif.Model.Rtf
import Verif.Spec.Rtf

/-!
# Lemmas on the RTF tokenizer
-/

set_option linter.unusedVariables false
set_option linter.unusedSimpArgs false

namespace Verif.Rtf

open Verif

/-! ## Positions -/

/-- The text from the position on. -/
def At (p : Parser) (s : Str) : Prop := 0 ≤ p.pos ∧ p.pos ≤ p.input.length ∧ p.input.drop p.pos.toNat = s

theorem at_exists {p : Parser} (h : 0 ≤ p.pos) (h' : p.pos ≤ p.input.length) : At p (p.input.drop p.pos.toNat) :=
  ⟨h, h', rfl⟩

theorem At.c {p : Parser} {s : Str} (h : At p s) : p.c = s.head? := by
  obtain ⟨h0, h1, h2⟩ := h
  unfold Parser.c charAt
  rw [if_pos h0, ← h2, List.head?_drop]

theorem At.consume {p : Parser} {a s : Str} (h : At p (a ++ s)) : At (p.consume a.length) s := by
  obtain ⟨h0, h1, h2⟩ := h
  have hl : p.input.length = p.pos.toNat + (a ++ s).length := by
    rw [← h2, List.length_drop]; omega
  rw [List.length_append] at hl
  refine ⟨?_, ?_, ?_⟩
  · simp only [Parser.consume]; omega
  · simp only [Parser.consume]; omega
  · simp only [Parser.consume]
    rw [show (p.pos + (a.length : Int)).toNat = p.pos.toNat + a.length by omega, ← List.drop_drop, h2]
    simp

theorem At.consume_one {p : Parser} {c : Char} {s : Str} (h : At p (c :: s)) : At (p.consume 1) s :=
  At.consume (a := [c]) h

theorem At.congr {p q : Parser} {s : Str} (h : At p s) (hi : q.input = p.input) (hp : q.pos = p.pos) : At q s := by
  unfold At at *
  rw [hi, hp]; exact h

theorem consume_consume (p : Parser) (m n : Int) : (p.consume m).consume n = p.consume (m + n) := by
  simp only [Parser.consume, Int.add_assoc]

theorem consume_zero (p : Parser) : p.consume 0 = p := by simp [Parser.consume]

/-! ## Control words -/

theorem parseLetters_run (T : Tables) (w s : Str) (p : Parser) (h : At p (w ++ s)) (hw : ∀ c ∈ w, T.isAlpha c = true)
    (hs : ∀ c, s.head? = some c → T.isAlpha c = false) : parseLetters T p = (w, p.consume w.length) := by
  induction w generalizing p with
  | nil =>
    rw [parseLetters.eq_def]
    have hc := h.c
    simp only [List.nil_append] at hc
    split
    · simp [consume_zero]
    · rename_i c hc'
      rw [hc] at hc'
      rw [hs c hc']
      simp [consume_zero]
  | cons a w ih =>
    rw [parseLetters.eq_def]
    have hc := h.c
    simp only [List.cons_append, List.head?_cons] at hc
    split
    · rename_i hc'
      rw [hc] at hc'; exact absurd hc' (by simp)
    · rename_i c hc'
      rw [hc] at hc'
      cases Option.some.inj hc'
      rw [if_pos (hw a (by simp))]
      have := ih (p.consume 1) (At.consume_one h) (fun c hc => hw c (by simp [hc]))
      rw [this, consume_consume]
      simp [Int.add_comm]

theorem parseLetters_spec (T : Tables) (n : Nat) (p : Parser) (s : Str) (h : At p s) (hn : s.length = n) :
    ∃ w s', s = w ++ s' ∧ parseLetters T p = (w, p.consume w.length) ∧ (∀ c ∈ w, T.isAlpha c = true) ∧
      ∀ c, s'.head? = some c → T.isAlpha c = false := by
  refine ⟨s.takeWhile T.isAlpha, s.dropWhile T.isAlpha, (List.takeWhile_append_dropWhile ..).symm, ?_, ?_, ?_⟩
  · apply parseLetters_run T _ (s.dropWhile T.isAlpha)
    · rw [List.takeWhile_append_dropWhile]; exact h
    · intro c hc; exact List.all_eq_true.mp List.all_takeWhile c hc
    · intro c hc
      have := List.head?_dropWhile_not T.isAlpha s
      rw [hc] at this
      simpa using this
  · intro c hc; exact List.all_eq_true.mp List.all_takeWhile c hc
  · intro c hc
    have := List.head?_dropWhile_not T.isAlpha s
    rw [hc] at this
    simpa using this

theorem parseDigits_run (T : Tables) (w s : Str) (p : Parser) (h : At p (w ++ s)) (hw : ∀ c ∈ w, T.isDigit c = true)
    (hs : ∀ c, s.head? = some c → T.isDigit c = false) : parseDigits T p = (w, p.consume w.length) := by
  induction w generalizing p with
  | nil =>
    rw [parseDigits.eq_def]
    have hc := h.c
    simp only [List.nil_append] at hc
    split
    · simp [consume_zero]
    · rename_i c hc'
      rw [hc] at hc'
      rw [hs c hc']
      simp [consume_zero]
  | cons a w ih =>
    rw [parseDigits.eq_def]
    have hc := h.c
    simp only [List.cons_append, List.head?_cons] at hc
    split
    · rename_i hc'
      rw [hc] at hc'; exact absurd hc' (by simp)
    · rename_i c hc'
      rw [hc] at hc'
      cases Option.some.inj hc'
      rw [if_pos (hw a (by simp))]
      have := ih (p.consume 1) (At.consume_one h) (fun c hc => hw c (by simp [hc]))
      rw [this, consume_consume]
      simp [Int.add_comm]

theorem parseDigits_spec (T : Tables) (p : Parser) (s : Str) (h : At p s) :
    ∃ w s', s = w ++ s' ∧ parseDigits T p = (w, p.consume w.length) ∧ (∀ c ∈ w, T.isDigit c = true) := by
  refine ⟨s.takeWhile T.isDigit, s.dropWhile T.isDigit, (List.takeWhile_append_dropWhile ..).symm, ?_, ?_⟩
  · apply parseDigits_run T _ (s.dropWhile T.isDigit)
    · rw [List.takeWhile_append_dropWhile]; exact h
    · intro c hc; exact List.all_eq_true.mp List.all_takeWhile c hc
    · intro c hc
      have := List.head?_dropWhile_not T.isDigit s
      rw [hc] at this
      simpa using this
  · intro c hc; exact List.all_eq_true.mp List.all_takeWhile c hc

/-- What a parsed control word tells about the text. -/
theorem parseControlWord_spec (T : Tables) (p : Parser) (s : Str) (h : At p s) (w : Str) (prm : Option Int) (q : Parser)
    (hr : parseControlWord T p = .ok (w, prm, q)) :
    ∃ n s', s = w ++ s' ∧ w.length ≤ n ∧ n ≤ s.length ∧ q = p.consume n ∧ (∀ c ∈ w, T.isAlpha c = true) ∧
      (∀ c, s'.head? = some c → T.isAlpha c = false) ∧ ∀ k, prm = some k → k < 0 → s'.head? = some '-' := by
  obtain ⟨w', s', rfl, hl, ha, hb⟩ := parseLetters_spec T _ p s h rfl
  unfold parseControlWord at hr
  rw [hl] at hr
  dsimp only at hr
  have h' : At (p.consume w'.length) s' := At.consume h
  split at hr
  · rename_i hc
    cases Except.ok.inj hr
    rw [h'.c] at hc
    refine ⟨w.length + 1, s', rfl, by omega, ?_, ?_, ha, hb, ?_⟩
    · cases s' with
      | nil => simp at hc
      | cons _ _ => simp [List.length_append]
    · rw [consume_consume]; simp
    · intro k hk; cases hk
  · split at hr
    · have hsp : ∀ (x y : Str) (v : Parser), At v y → ∃ e, e ≤ y.length ∧ skipSpace v = v.consume (e : Nat) := by
        intro _ y v hv
        unfold skipSpace
        split
        · rename_i hc
          rw [hv.c] at hc
          cases y with
          | nil => simp at hc
          | cons _ _ => exact ⟨1, by simp, rfl⟩
        · exact ⟨0, by simp, (consume_zero v).symm⟩
      unfold parseNumber at hr
      dsimp only at hr
      by_cases hm : (p.consume w'.length).c = some '-'
      · simp only [if_pos hm] at hr
        have hm' := hm
        rw [h'.c] at hm'
        cases s' with
        | nil => simp at hm'
        | cons x y =>
          obtain ⟨d, y', rfl, hd, _⟩ := parseDigits_spec T ((p.consume w'.length).consume 1) y (At.consume_one h')
          rw [hd] at hr
          split at hr
          · cases hr
          · cases hi : intOf T 0 d with
            | error _ => dsimp only at hr; rw [hi] at hr; cases hr
            | ok n =>
              dsimp only at hr
              rw [hi] at hr
              simp only [pure, Except.pure, bind, Except.bind] at hr
              cases Except.ok.inj hr
              obtain ⟨e, he, hes⟩ := hsp d y' _ (At.consume (At.consume_one h'))
              refine ⟨w.length + 1 + d.length + e, x :: (d ++ y'), rfl, by omega, ?_, ?_, ha, hb, ?_⟩
              · simp only [List.length_append, List.length_cons]; omega
              · rw [hes, consume_consume, consume_consume, consume_consume]
                congr 1; omega
              · intro k _ _; exact hm'
      · simp only [if_neg hm] at hr
        obtain ⟨d, y', rfl, hd, _⟩ := parseDigits_spec T (p.consume w'.length) s' h'
        rw [hd] at hr
        split at hr
        · cases hr
        · cases hi : intOf T 0 d with
          | error _ => dsimp only at hr; rw [hi] at hr; cases hr
          | ok n =>
            dsimp only at hr
            rw [hi] at hr
            simp only [pure, Except.pure, bind, Except.bind] at hr
            cases Except.ok.inj hr
            obtain ⟨e, he, hes⟩ := hsp d y' _ (At.consume h')
            refine ⟨w.length + d.length + e, d ++ y', rfl, by omega, ?_, ?_, ha, hb, ?_⟩
            · simp only [List.length_append]; omega
            · rw [hes, consume_consume, consume_consume]
              congr 1; omega
            · intro k hk hlt
              have := Option.some.inj hk
              omega
    · cases Except.ok.inj hr
      refine ⟨w.length, s', rfl, by omega, ?_, rfl, ha, hb, ?_⟩
      · simp [List.length_append]
      · intro k hk; cases hk

/-! ## Control words in the notation of the specification -/

theorem digit_ascii (T : Tables) {c : Char} (h : Spec.IsDigit c) :
    T.isDigit c = true ∧ T.isAlpha c = false ∧ c ≠ '-' ∧ c ≠ ' ' ∧ T.digitValue c = some (Spec.digitValue c) := by
  obtain ⟨h1, h2⟩ := h
  have h1 : 48 ≤ c.toNat := h1
  have h2 : c.toNat ≤ 57 := h2
  unfold Tables.isDigit Tables.isAlpha Tables.digitValue Py.isLetter Py.isDigit Spec.digitValue
  refine ⟨?_, ?_, ?_, ?_, ?_⟩
  · rw [if_pos (by omega)]; simp; omega
  · rw [if_pos (by omega)]; simp; omega
  · rintro rfl; revert h1; decide
  · rintro rfl; revert h1; decide
  · rw [if_pos (by omega), if_pos (by simp; omega)]; rfl

theorem letter_ascii (T : Tables) {c : Char} (h : Spec.Rtf.Letter c) : T.isAlpha c = true ∧ c.toNat < 128 := by
  have h : (97 ≤ c.toNat ∧ c.toNat ≤ 122) ∨ (65 ≤ c.toNat ∧ c.toNat ≤ 90) := h
  unfold Tables.isAlpha Py.isLetter
  refine ⟨?_, by omega⟩
  rw [if_pos (by omega)]; simp; omega

theorem other_ascii (T : Tables) {c : Char} (h : c.toNat < 128) (h1 : ¬ Spec.Rtf.Letter c) (h2 : ¬ Spec.IsDigit c) :
    T.isAlpha c = false ∧ T.isDigit c = false := by
  have h1 : ¬ ((97 ≤ c.toNat ∧ c.toNat ≤ 122) ∨ (65 ≤ c.toNat ∧ c.toNat ≤ 90)) := h1
  have h2 : ¬ (48 ≤ c.toNat ∧ c.toNat ≤ 57) := h2
  unfold Tables.isAlpha Py.isLetter Tables.isDigit Py.isDigit
  rw [if_pos h, if_pos h]; simp; omega

theorem intOf_digits (T : Tables) (d : Str) (h : ∀ c ∈ d, Spec.IsDigit c) (n : Nat) :
    intOf T n d = .ok (n * 10 ^ d.length + Spec.digitsValue d) := by
  induction d generalizing n with
  | nil => simp [intOf, Spec.digitsValue]
  | cons c d ih =>
    unfold intOf
    rw [(digit_ascii T (h c (by simp))).2.2.2.2]
    dsimp only
    rw [ih (fun x hx => h x (by simp [hx]))]
    simp only [Spec.digitsValue, List.length_cons, Nat.pow_succ]
    congr 1
    rw [Nat.add_mul, Nat.mul_comm 10 n, Nat.mul_assoc, Nat.mul_comm 10, Nat.add_assoc]

theorem delimited_head (T : Tables) {s t : Str} (h : Spec.Rtf.Delimited s t) (c : Char) (hc : t.head? = some c) :
    T.isAlpha c = false ∧ T.isDigit c = false ∧ c ≠ '-' := by
  cases h with
  | space => cases Option.some.inj hc; exact ⟨rfl, rfl, by decide⟩
  | nil => cases hc
  | other r h1 h2 h3 h4 h5 =>
    cases Option.some.inj hc
    exact ⟨(other_ascii T h1 h2 h3).1, (other_ascii T h1 h2 h3).2, h4⟩

theorem skipSpace_delimited {p : Parser} {s t : Str} (h : Spec.Rtf.Delimited s t) (hp : At p t) :
    ∃ n : Nat, skipSpace p = p.consume n ∧ At (p.consume n) s := by
  unfold skipSpace
  cases h with
  | space => exact ⟨1, by rw [hp.c]; rfl, At.consume_one hp⟩
  | nil => exact ⟨0, by rw [hp.c]; simp [consume_zero], by simpa [consume_zero] using hp⟩
  | other r h1 h2 h3 h4 h5 =>
    refine ⟨0, ?_, by simpa [consume_zero] using hp⟩
    rw [hp.c, if_neg (by simpa using h5)]
    simp [consume_zero]

/-- Control words are read as they are meant. -/
theorem parseControlWord_run (T : Tables) (p : Parser) (w d s t : Str) (prm : Option Int) (hw : ∀ c ∈ w, Spec.Rtf.Letter c)
    (hd : Spec.Rtf.Param prm d) (hs : Spec.Rtf.Delimited s t) (h : At p (w ++ d ++ t)) :
    ∃ n : Nat, parseControlWord T p = .ok (w, prm, p.consume n) ∧ At (p.consume n) s := by
  rw [List.append_assoc] at h
  have hdt : ∀ c, (d ++ t).head? = some c → T.isAlpha c = false := by
    intro c hc
    have digits : ∀ e : Str, (∀ c ∈ e, Spec.IsDigit c) → e ≠ [] → (e ++ t).head? = some c → T.isAlpha c = false := by
      intro e he hne hc
      cases e with
      | nil => exact absurd rfl hne
      | cons x y => cases Option.some.inj hc; exact (digit_ascii T (he c (by simp))).2.1
    cases hd with
    | none => exact (delimited_head T hs c hc).1
    | plain hn => cases hn with | mk h1 h2 => exact digits _ h2 h1 hc
    | minus hn => cases Option.some.inj hc; rfl
  have hl := parseLetters_run T w (d ++ t) p h (fun c hc => (letter_ascii T (hw c hc)).1) hdt
  have hat : At (p.consume w.length) (d ++ t) := At.consume h
  have hht := delimited_head T hs
  -- reading the digits
  have num : ∀ (e : Str) (v : Parser), (∀ c ∈ e, Spec.IsDigit c) → At v (e ++ t) →
      parseDigits T v = (e, v.consume e.length) :=
    fun e v he hv => parseDigits_run T e t v hv (fun c hc => (digit_ascii T (he c hc)).1) (fun c hc => (hht c hc).2.1)
  unfold parseControlWord
  rw [hl]
  dsimp only
  cases hd with
  | none =>
    simp only [List.nil_append] at hat
    obtain ⟨n, hn, hn'⟩ := skipSpace_delimited hs hat
    unfold skipSpace at hn
    refine ⟨w.length + n, ?_, by rw [show ((w.length + n : Nat) : Int) = (w.length : Int) + (n : Int) by omega, ← consume_consume]; exact hn'⟩
    rw [show ((w.length + n : Nat) : Int) = (w.length : Int) + (n : Int) by omega, ← consume_consume]
    by_cases hc : (p.consume w.length).c = some ' '
    · rw [if_pos hc] at hn ⊢
      rw [hn]
    · rw [if_neg hc] at hn ⊢
      have : paramFollows T (p.consume w.length) = false := by
        unfold paramFollows
        rw [hat.c]
        cases t with
        | nil => rfl
        | cons x y =>
          obtain ⟨_, a, b⟩ := hht x rfl
          simp [a, b]
      rw [this, if_neg (by simp), ← hn]
  | plain hn =>
    cases hn with
    | mk h1 h2 =>
      have hc := hat.c
      cases d with
      | nil => exact absurd rfl h1
      | cons x y =>
        have hx := digit_ascii T (h2 x (by simp))
        simp only [List.cons_append, List.head?_cons] at hc
        rw [hc, if_neg (by simpa using hx.2.2.2.1)]
        have : paramFollows T (p.consume w.length) = true := by
          unfold paramFollows; rw [hc]; simp [hx.1]
        rw [this, if_pos rfl]
        obtain ⟨n, hn, hn'⟩ := skipSpace_delimited hs (At.consume hat)
        refine ⟨w.length + (x :: y).length + n, ?_, ?_⟩
        · unfold parseNumber
          have hm : ¬ ((p.consume w.length).c = some '-') := by rw [hc]; simpa using hx.2.2.1
          simp only [if_neg hm]
          rw [num (x :: y) _ h2 hat]
          dsimp only
          rw [if_neg (by simp), intOf_digits T _ h2]
          simp only [bind, Except.bind, hn]
          rw [consume_consume, consume_consume]
          simp [Int.add_assoc]
        · rw [consume_consume, consume_consume] at hn'
          rw [show ((w.length + (x :: y).length + n : Nat) : Int) = (w.length : Int) + (((x :: y).length : Nat) + (n : Int)) by omega]
          simpa [Int.add_assoc] using hn'
  | @minus e _ hn =>
    cases hn with
    | mk h1 h2 =>
      have hc := hat.c
      simp only [List.cons_append, List.head?_cons] at hc
      rw [hc, if_neg (by decide)]
      have : paramFollows T (p.consume w.length) = true := by
        unfold paramFollows; rw [hc]; simp
      rw [this, if_pos rfl]
      obtain ⟨n, hn, hn'⟩ := skipSpace_delimited hs (At.consume (At.consume_one hat))
      refine ⟨w.length + 1 + e.length + n, ?_, ?_⟩
      · unfold parseNumber
        simp only [if_pos hc]
        rw [num e _ h2 (At.consume_one hat)]
        dsimp only
        rw [if_neg h1, intOf_digits T _ h2]
        simp only [bind, Except.bind, hn]
        rw [consume_consume, consume_consume, consume_consume]
        simp [Int.add_assoc]
      · rw [consume_consume, consume_consume, consume_consume] at hn'
        rw [show ((w.length + 1 + e.length + n : Nat) : Int) = (w.length : Int) + (1 + ((e.length : Nat) + (n : Int))) by omega]
        simpa [Int.add_assoc] using hn'

/-! ## Fields that do not change -/

theorem endString_fields (p : Parser) : p.endString.input = p.input ∧ p.endString.pos = p.pos ∧
    p.endString.state = p.state ∧ p.endString.stack = p.stack ∧ p.endString.popen = p.popen := by
  unfold Parser.endString; split <;> exact ⟨rfl, rfl, rfl, rfl, rfl⟩

theorem stateChanged_fields (p : Parser) : p.stateChanged.input = p.input ∧ p.stateChanged.pos = p.pos ∧
    p.stateChanged.state = p.state ∧ p.stateChanged.stack = p.stack ∧ p.stateChanged.popen = p.popen := by
  unfold Parser.stateChanged
  split
  · exact endString_fields p
  · exact ⟨rfl, rfl, rfl, rfl, rfl⟩

/-! ## Running -/

/-- From `p` the loop comes to `q`. -/
def Comes (T : Tables) (p q : Parser) : Prop := ∃ k, ∀ n, loop T (n + k) p = loop T n q

theorem Comes.refl (T : Tables) (p : Parser) : Comes T p p := ⟨0, fun _ => rfl⟩

theorem Comes.trans {T : Tables} {p q r : Parser} (h : Comes T p q) (h' : Comes T q r) : Comes T p r := by
  obtain ⟨k, hk⟩ := h
  obtain ⟨l, hl⟩ := h'
  refine ⟨l + k, fun n => ?_⟩
  rw [← Nat.add_assoc, hk, hl]

theorem Comes.step {T : Tables} {p q : Parser} {c : Char} {s : Str} (h : At p (c :: s)) (hs : step T p c = .ok q) :
    Comes T p q := by
  refine ⟨1, fun n => ?_⟩
  show loop T (n + 1) p = _
  unfold loop
  rw [h.c]
  simp only [List.head?_cons, hs]
  cases n <;> rfl

theorem loop_more {T : Tables} {n : Nat} {p : Parser} {r : Except Err (List Token)} (h : loop T n p = some r) (m : Nat) :
    loop T (n + m) p = some r := by
  induction n generalizing p with
  | zero => cases h
  | succ n ih =>
    rw [Nat.add_right_comm]
    unfold loop at h ⊢
    split at h
    · exact h
    · rename_i c hc
      cases hq : step T p c with
      | error e => rw [hq] at h; exact h
      | ok q => rw [hq] at h; exact ih h

theorem loop_unique {T : Tables} {m n : Nat} {p : Parser} {r s : Except Err (List Token)} (h : loop T m p = some r)
    (h' : loop T n p = some s) : r = s := by
  have := loop_more h n
  have h'' := loop_more h' m
  rw [Nat.add_comm] at h''
  exact Option.some.inj (this.symm.trans h'')

end Verif.Rtf
