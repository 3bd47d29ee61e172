import Verif.Model.XsdText
import Verif.Spec.XsdText
import Verif.Lemmas.XmlUtils
import Verif.Lemmas.ContentPackage
import Verif.Props.QtiTypes

/-!
# Reading and writing numbers in XML schema notation
-/

namespace Verif.Props

open Verif Verif.Xsd Verif.Spec Verif.XmlUtils Verif.CP

set_option linter.unusedVariables false

theorem isDigit_iff (c : Char) : Py.isDigit c = true ↔ IsDigit c := by
  unfold Py.isDigit IsDigit
  rw [Bool.and_eq_true, decide_eq_true_eq, decide_eq_true_eq]
  show _ ↔ ('0'.toNat ≤ c.toNat ∧ c.toNat ≤ '9'.toNat)
  exact Iff.rfl

theorem all_isDigit (s : Str) : s.all Py.isDigit = true ↔ ∀ c ∈ s, IsDigit c := by
  rw [List.all_eq_true]
  exact ⟨fun h c hc => (isDigit_iff c).mp (h c hc), fun h c hc => (isDigit_iff c).mpr (h c hc)⟩

theorem hexVal_digit {c : Char} (h : IsDigit c) : Py.hexVal c = digitValue c := by
  have h' := (isDigit_iff c).mpr h
  simp only [Py.isDigit, Bool.and_eq_true, decide_eq_true_eq] at h'
  unfold Py.hexVal digitValue
  show _ = c.toNat - 48
  split <;> omega

theorem foldl_digits : ∀ (s : Str) (a : Nat), (∀ c ∈ s, IsDigit c) →
    s.foldl (fun acc c => acc * 10 + Py.hexVal c) a = a * 10 ^ s.length + digitsValue s
  | [], a, _ => by simp [digitsValue]
  | c :: s, a, h => by
    rw [List.foldl_cons, foldl_digits s _ (fun d hd => h d (List.mem_cons_of_mem _ hd)),
      hexVal_digit (h c (List.mem_cons_self ..)), digitsValue, List.length_cons, Nat.pow_succ, Nat.add_mul]
    have : a * 10 * 10 ^ s.length = a * (10 ^ s.length * 10) := by
      rw [Nat.mul_assoc, Nat.mul_comm 10]
    omega

theorem digitsVal_value {s : Str} (h : ∀ c ∈ s, IsDigit c) : Py.digitsVal 10 s = digitsValue s := by
  unfold Py.digitsVal
  rw [foldl_digits s 0 h]
  simp

theorem digitsValue_append (s t : Str) : digitsValue (s ++ t) = digitsValue s * 10 ^ t.length + digitsValue t := by
  induction s with
  | nil => simp [digitsValue]
  | cons c s ih =>
    rw [List.cons_append, digitsValue, digitsValue, ih, List.length_append, Nat.pow_add, Nat.add_mul,
      Nat.mul_assoc]
    omega

/-- The characters of signs, points and digits are all different. -/
theorem digit_not_sign {c : Char} (h : IsDigit c) : c ≠ '-' ∧ c ≠ '+' ∧ c ≠ '.' ∧ ¬ (c.toNat = 0x2B ∨ c.toNat = 0x2D) ∧
    ¬ c.toNat = 0x2E ∧ ¬ (c.toNat < 0x30 ∨ c.toNat > 0x39) := by
  have h' := (isDigit_iff c).mpr h
  simp only [Py.isDigit, Bool.and_eq_true, decide_eq_true_eq] at h'
  refine ⟨?_, ?_, ?_, by omega, by omega, by omega⟩
  · rintro rfl; revert h'; decide
  · rintro rfl; revert h'; decide
  · rintro rfl; revert h'; decide

theorem scanInteger_digits : ∀ (s : Str) (sign : Bool), (∀ c ∈ s, IsDigit c) → scanInteger sign s = .ok ()
  | [], _, _ => rfl
  | c :: s, sign, h => by
    obtain ⟨_, _, _, h1, _, h2⟩ := digit_not_sign (h c (List.mem_cons_self ..))
    rw [scanInteger, if_neg h1, if_neg h2]
    exact scanInteger_digits s true (fun d hd => h d (List.mem_cons_of_mem _ hd))

theorem natural_of (s : Str) : (s ≠ [] ∧ s.all Py.isDigit = true) ↔ NaturalText s (digitsValue s) := by
  rw [all_isDigit]
  constructor
  · rintro ⟨h1, h2⟩; exact .mk h1 h2
  · intro h; cases h with | mk h1 h2 => exact ⟨h1, h2⟩

theorem natural_value {s : Str} {n : Nat} (h : NaturalText s n) : n = digitsValue s ∧ s ≠ [] ∧ ∀ c ∈ s, IsDigit c := by
  cases h with | mk h1 h2 => exact ⟨rfl, h1, h2⟩

/-- An integer is read exactly when the text is an `xs:integer`, and gets the value the text stands for. -/
theorem integer_read (s : Str) (i : Int) : decodeInteger s = .ok i ↔ IntegerText s i := by
  have plain : ∀ t : Str, ∀ (k : Int → Int), ((if t ≠ [] ∧ t.all Py.isDigit = true then Except.ok (k (Py.digitsVal 10 t))
      else .error .valueError : Except Err Int) = .ok i ↔ ∃ n, NaturalText t n ∧ i = k n) := by
    intro t k
    constructor
    · intro h
      split at h
      · rename_i hc
        have := (natural_of t).mp hc
        refine ⟨_, this, ?_⟩
        rw [← digitsVal_value ((all_isDigit t).mp hc.2)]
        exact (Except.ok.inj h).symm
      · cases h
    · rintro ⟨n, hn, rfl⟩
      obtain ⟨rfl, h1, h2⟩ := natural_value hn
      rw [if_pos ((natural_of t).mpr hn), digitsVal_value h2]
  constructor
  · intro h
    obtain ⟨_, _, h⟩ := bind_ok h
    unfold pyInt at h
    split at h
    · rename_i t _ _
      obtain ⟨n, hn, rfl⟩ := (plain t (fun x => -x)).mp h
      exact .minus hn
    · rename_i t _ _
      obtain ⟨n, hn, rfl⟩ := (plain t id).mp h
      exact .plus hn
    · obtain ⟨n, hn, rfl⟩ := (plain s id).mp h
      exact .plain hn
  · intro h
    unfold decodeInteger
    cases h with
    | plain hn =>
      obtain ⟨rfl, h1, h2⟩ := natural_value hn
      rw [scanInteger_digits s false h2]
      simp only [bind, Except.bind]
      unfold pyInt
      split
      · exact absurd rfl (digit_not_sign (h2 _ (List.mem_cons_self ..))).1
      · exact absurd rfl (digit_not_sign (h2 _ (List.mem_cons_self ..))).2.1
      · exact (plain s id).mpr ⟨_, hn, rfl⟩
    | @plus t n hn =>
      obtain ⟨_, h1, h2⟩ := natural_value hn
      rw [scanInteger, if_pos (by decide), if_neg (by simp), scanInteger_digits t true h2]
      exact (plain t id).mpr ⟨_, hn, rfl⟩
    | @minus t n hn =>
      obtain ⟨_, h1, h2⟩ := natural_value hn
      rw [scanInteger, if_pos (by decide), if_neg (by simp), scanInteger_digits t true h2]
      exact (plain t (fun x => -x)).mpr ⟨_, hn, rfl⟩

/-- An integer that is written is read back. -/
theorem integer_round_trip (i : Int) : decodeInteger (encodeInteger i) = .ok i := by
  rw [integer_read]
  have hn : ∀ n : Nat, NaturalText (Py.strNat n) n := by
    intro n
    have := (natural_of (Py.strNat n)).mp ⟨strNat_ne_nil n, strNat_all n⟩
    rw [← digitsVal_value ((all_isDigit _).mp (strNat_all n)), strNat_val] at this
    exact this
  unfold encodeInteger
  split
  · have : i = -(i.natAbs : Int) := by omega
    rw [this]
    have h := IntegerText.minus (hn i.natAbs)
    rwa [show (-(i.natAbs : Int)).natAbs = i.natAbs by omega]
  · have : i = (i.natAbs : Int) := by omega
    have h := IntegerText.plain (hn i.natAbs)
    rw [← this] at h
    exact h

/-! ## Decimals and doubles -/

theorem scanDecimal_digits : ∀ (s : Str) (sign point digit : Bool), (∀ c ∈ s, IsDigit c) → (digit = true ∨ s ≠ []) →
    scanDecimal sign point digit s = .ok ()
  | [], sign, point, digit, _, h => by
    rcases h with h | h
    · subst h; rfl
    · exact absurd rfl h
  | c :: s, sign, point, digit, h, _ => by
    obtain ⟨_, _, _, h1, h2, h3⟩ := digit_not_sign (h c (List.mem_cons_self ..))
    rw [scanDecimal, if_neg h1, if_neg h2, if_neg h3]
    exact scanDecimal_digits s true point true (fun d hd => h d (List.mem_cons_of_mem _ hd)) (Or.inl rfl)

theorem scanDecimal_point (t : Str) (ht : ∀ c ∈ t, IsDigit c) : ∀ (s : Str) (sign digit : Bool),
    (∀ c ∈ s, IsDigit c) → (digit = true ∨ s ++ t ≠ []) → scanDecimal sign false digit (s ++ '.' :: t) = .ok ()
  | [], sign, digit, _, h => by
    rw [List.nil_append, scanDecimal, if_neg (by decide), if_pos (by decide), if_neg (by simp)]
    exact scanDecimal_digits t _ _ _ ht h
  | c :: s, sign, digit, h, _ => by
    obtain ⟨_, _, _, h1, h2, h3⟩ := digit_not_sign (h c (List.mem_cons_self ..))
    rw [List.cons_append, scanDecimal, if_neg h1, if_neg h2, if_neg h3]
    exact scanDecimal_point t ht s true true (fun d hd => h d (List.mem_cons_of_mem _ hd)) (Or.inl rfl)

theorem digits_no_point {s : Str} (h : ∀ c ∈ s, IsDigit c) : '.' ∉ s :=
  fun hm => (digit_not_sign (h _ hm)).2.2.1 rfl

theorem point_value (a b : Str) :
    ((digitsValue (a ++ b) : Nat) : Rat) / ((10 ^ b.length : Nat) : Rat) =
      digitsValue a + digitsValue b / ((10 ^ b.length : Nat) : Rat) := by
  have hp : ((10 ^ b.length : Nat) : Rat) ≠ 0 := by
    intro h
    have : (10 ^ b.length : Nat) = 0 := by exact_mod_cast h
    exact absurd this (Nat.pos_iff_ne_zero.mp (Nat.pow_pos (by decide)))
  rw [digitsValue_append]
  have : ((digitsValue a * 10 ^ b.length + digitsValue b : Nat) : Rat) =
      (digitsValue a : Rat) * ((10 ^ b.length : Nat) : Rat) + (digitsValue b : Rat) := by push_cast; rfl
  rw [this]
  generalize ((10 ^ b.length : Nat) : Rat) = p at hp
  rw [Rat.div_def, Rat.div_def, Rat.add_mul, Rat.mul_assoc, Rat.mul_inv_cancel _ hp, Rat.mul_one]

theorem unsigned_read (s : Str) (q : Rat) : pyUnsigned s = .ok q ↔ UnsignedText s q := by
  constructor
  · intro h
    have hj := join_split '.' s
    unfold pyUnsigned at h
    split at h
    · rename_i a hs
      rw [hs] at hj
      simp only [Py.join] at hj
      subst hj
      split at h
      · rename_i hc
        have hd := (all_isDigit a).mp hc.2
        rw [← Except.ok.inj h, digitsVal_value hd]
        exact .whole (.mk hc.1 hd)
      · cases h
    · rename_i a b hs
      rw [hs] at hj
      simp only [Py.join] at hj
      subst hj
      split at h
      · rename_i hc
        have hd := (all_isDigit _).mp hc.2
        rw [← Except.ok.inj h, digitsVal_value hd, point_value]
        exact .point hd hc.1
      · cases h
    · cases h
  · intro h
    unfold pyUnsigned
    cases h with
    | whole hn =>
      obtain ⟨rfl, h1, h2⟩ := natural_value hn
      rw [split_of_not_mem _ _ (digits_no_point h2)]
      dsimp only
      rw [if_pos ⟨h1, (all_isDigit s).mpr h2⟩, digitsVal_value h2]
    | @point a b hd hne =>
      have ha : ∀ c ∈ a, IsDigit c := fun c hc => hd c (List.mem_append_left _ hc)
      have hb : ∀ c ∈ b, IsDigit c := fun c hc => hd c (List.mem_append_right _ hc)
      rw [split_append, split_of_not_mem _ _ (digits_no_point ha), split_of_not_mem _ _ (digits_no_point hb)]
      dsimp only [List.cons_append, List.nil_append]
      rw [if_pos ⟨hne, (all_isDigit _).mpr hd⟩, digitsVal_value hd, point_value]

theorem scanDecimal_unsigned {s : Str} {q : Rat} (h : UnsignedText s q) (sign : Bool) :
    scanDecimal sign false false s = .ok () := by
  cases h with
  | whole hn =>
    obtain ⟨_, h1, h2⟩ := natural_value hn
    exact scanDecimal_digits s _ _ _ h2 (Or.inr h1)
  | @point a b hd hne =>
    exact scanDecimal_point b (fun c hc => hd c (List.mem_append_right _ hc)) a _ _
      (fun c hc => hd c (List.mem_append_left _ hc)) (Or.inr hne)

theorem unsigned_head {s : Str} {q : Rat} (h : UnsignedText s q) (t : Str) : s ≠ '-' :: t ∧ s ≠ '+' :: t := by
  cases h with
  | whole hn =>
    obtain ⟨_, h1, h2⟩ := natural_value hn
    constructor
    · rintro rfl; exact absurd rfl (digit_not_sign (h2 _ (List.mem_cons_self ..))).1
    · rintro rfl; exact absurd rfl (digit_not_sign (h2 _ (List.mem_cons_self ..))).2.1
  | @point a b hd hne =>
    cases a with
    | nil => constructor <;> (intro h; simp at h)
    | cons c a =>
      have := digit_not_sign (hd c (by simp))
      constructor
      · intro h; simp at h; exact this.1 h.1
      · intro h; simp at h; exact this.2.1 h.1

/-- A decimal is read exactly when the text is an `xs:decimal`, and gets the value the text stands for. -/
theorem decimal_read (s : Str) (q : Rat) : decodeDecimal s = .ok q ↔ DecimalText s q := by
  constructor
  · intro h
    obtain ⟨_, _, h⟩ := bind_ok h
    unfold pyFloat at h
    split at h
    · obtain ⟨x, hx, h⟩ := bind_ok h
      rw [← Except.ok.inj h]
      exact .minus ((unsigned_read _ _).mp hx)
    · exact .plus ((unsigned_read _ _).mp h)
    · exact .plain ((unsigned_read _ _).mp h)
  · intro h
    unfold decodeDecimal
    cases h with
    | plain h =>
      rw [scanDecimal_unsigned h]
      simp only [bind, Except.bind]
      unfold pyFloat
      split
      · exact absurd rfl (unsigned_head h _).1
      · exact absurd rfl (unsigned_head h _).2
      · exact (unsigned_read _ _).mpr h
    | plus h =>
      rw [scanDecimal, if_pos (by decide), if_neg (by simp), scanDecimal_unsigned h]
      exact (unsigned_read _ _).mpr h
    | minus h =>
      rw [scanDecimal, if_pos (by decide), if_neg (by simp), scanDecimal_unsigned h]
      simp only [bind, Except.bind, pyFloat, (unsigned_read _ _).mpr h]

/-- The characters of decimals. -/
def NumChar (c : Char) : Prop := IsDigit c ∨ c = '.' ∨ c = '-' ∨ c = '+'

theorem unsigned_chars {s : Str} {q : Rat} (h : UnsignedText s q) : ∀ c ∈ s, NumChar c := by
  cases h with
  | whole hn => exact fun c hc => Or.inl ((natural_value hn).2.2 c hc)
  | @point a b hd hne =>
    intro c hc
    rw [List.mem_append, List.mem_cons] at hc
    rcases hc with hc | rfl | hc
    · exact Or.inl (hd c (List.mem_append_left _ hc))
    · exact Or.inr (Or.inl rfl)
    · exact Or.inl (hd c (List.mem_append_right _ hc))

theorem decimal_chars {s : Str} {q : Rat} (h : DecimalText s q) : ∀ c ∈ s, NumChar c := by
  intro c hc
  cases h with
  | plain h => exact unsigned_chars h c hc
  | plus h =>
    rcases List.mem_cons.mp hc with rfl | hc
    · exact Or.inr (Or.inr (Or.inr rfl))
    · exact unsigned_chars h c hc
  | minus h =>
    rcases List.mem_cons.mp hc with rfl | hc
    · exact Or.inr (Or.inr (Or.inl rfl))
    · exact unsigned_chars h c hc

theorem integer_chars {s : Str} {i : Int} (h : IntegerText s i) : ∀ c ∈ s, NumChar c := by
  intro c hc
  cases h with
  | plain h => exact Or.inl ((natural_value h).2.2 c hc)
  | plus h =>
    rcases List.mem_cons.mp hc with rfl | hc
    · exact Or.inr (Or.inr (Or.inr rfl))
    · exact Or.inl ((natural_value h).2.2 c hc)
  | minus h =>
    rcases List.mem_cons.mp hc with rfl | hc
    · exact Or.inr (Or.inr (Or.inl rfl))
    · exact Or.inl ((natural_value h).2.2 c hc)

theorem numChar_range {c : Char} (h : NumChar c) : c.toNat ≤ 57 := by
  rcases h with h | rfl | rfl | rfl
  · have h' := (isDigit_iff c).mpr h
    simp only [Py.isDigit, Bool.and_eq_true, decide_eq_true_eq] at h'
    exact h'.2
  · decide
  · decide
  · decide

theorem ofNat_toNat {n : Nat} (h : n < 0xd800) : (Char.ofNat n).toNat = n := by
  unfold Char.ofNat
  rw [dif_pos (Or.inl h)]
  show (UInt32.ofNatLT n _).toNat = n
  exact UInt32.toNat_ofNatLT ..

theorem lowerChar_num {c : Char} (h : c.toNat ≤ 57) : Py.lowerChar c = c := by
  unfold Py.lowerChar
  rw [if_neg (by omega)]

theorem lowerChar_num_inv {c : Char} (h : (Py.lowerChar c).toNat ≤ 57) : Py.lowerChar c = c := by
  unfold Py.lowerChar at h ⊢
  split at h
  · rename_i hc
    have : (Char.ofNat (c.toNat + 32)).toNat = c.toNat + 32 := by
      rw [ofNat_toNat (by omega)]
    omega
  · rename_i hc; rw [if_neg hc]

theorem lower_num {s : Str} (h : ∀ c ∈ s, NumChar c) : Py.lower s = s := by
  unfold Py.lower
  conv => rhs; rw [← List.map_id s]
  exact List.map_congr_left fun c hc => lowerChar_num (numChar_range (h c hc))

theorem lower_num_inv {s : Str} (h : ∀ c ∈ Py.lower s, NumChar c) : Py.lower s = s := by
  unfold Py.lower at h ⊢
  conv => rhs; rw [← List.map_id s]
  exact List.map_congr_left fun c hc =>
    lowerChar_num_inv (numChar_range (h _ (List.mem_map.mpr ⟨c, hc, rfl⟩)))

theorem lowerChar_e (c : Char) : Py.lowerChar c = 'e' ↔ c = 'e' ∨ c = 'E' := by
  constructor
  · intro h
    unfold Py.lowerChar at h
    split at h
    · rename_i hc
      have h' := congrArg Char.toNat h
      rw [ofNat_toNat (by omega)] at h'
      right
      apply Char.toNat_inj.mp
      show c.toNat = 69
      have : 'e'.toNat = 101 := rfl
      omega
    · exact Or.inl h
  · rintro (rfl | rfl) <;> decide

theorem numChar_not_e {c : Char} (h : NumChar c) : c ≠ 'e' := by
  rintro rfl
  have := numChar_range h
  revert this
  decide

/-- A double (other than the special values) is read exactly when the text is an `xs:double`, and gets the
value the text stands for. -/
theorem double_read (s : Str) (q : Rat) : decodeDouble s = .ok q ↔ DoubleText s q := by
  constructor
  · intro h
    unfold decodeDouble at h
    by_cases he : 'e' ∈ Py.lower s
    · simp only [if_pos he] at h
      have hj := join_split 'e' (Py.lower s)
      split at h
      · rename_i m e hs
        rw [hs] at hj
        simp only [Py.join] at hj
        obtain ⟨x, hx, h⟩ := bind_ok h
        obtain ⟨y, hy, h⟩ := bind_ok h
        have hx' := (decimal_read _ _).mp hx
        have hy' := (integer_read _ _).mp hy
        rw [← Except.ok.inj h]
        unfold Py.lower at hj
        have hj := hj.symm
        rw [List.map_eq_append_iff] at hj
        obtain ⟨l1, l2, rfl, h1, h2⟩ := hj
        rw [List.map_eq_cons_iff] at h2
        obtain ⟨c, l3, rfl, h3, h4⟩ := h2
        have e1 : m = l1 := by
          rw [← h1]
          exact lower_num_inv (by unfold Py.lower; rw [h1]; exact decimal_chars hx')
        have e2 : e = l3 := by
          rw [← h4]
          exact lower_num_inv (by unfold Py.lower; rw [h4]; exact integer_chars hy')
        subst e1 e2
        exact .exponent hx' hy' ((lowerChar_e c).mp h3)
      · cases h
    · simp only [if_neg he] at h
      split at h
      · cases h
      · have hx := (decimal_read _ _).mp h
        rw [lower_num_inv (decimal_chars hx)] at hx
        exact .decimal hx
  · intro h
    unfold decodeDouble
    cases h with
    | decimal h =>
      have hc := decimal_chars h
      simp only [lower_num hc]
      rw [if_neg (fun he => numChar_not_e (hc _ he) rfl), if_neg, (decimal_read _ _).mpr h]
      rintro (rfl | rfl | rfl)
      · have := numChar_range (hc 'i' (by simp)); revert this; decide
      · have := numChar_range (hc 'i' (by simp)); revert this; decide
      · have := numChar_range (hc 'n' (by simp)); revert this; decide
    | @exponent m x e y c hx hy hc =>
      have hm := decimal_chars hx
      have hn := integer_chars hy
      have hl : Py.lower (m ++ c :: e) = m ++ 'e' :: e := by
        have := lower_num hm
        have := lower_num hn
        unfold Py.lower at *
        rw [List.map_append, List.map_cons, (lowerChar_e c).mpr hc]
        simp_all
      simp only [hl]
      rw [if_pos (by simp), split_append, split_of_not_mem _ _ (fun he => numChar_not_e (hm _ he) rfl),
        split_of_not_mem _ _ (fun he => numChar_not_e (hn _ he) rfl)]
      simp only [List.cons_append, List.nil_append, (decimal_read _ _).mpr hx, (integer_read _ _).mpr hy, bind,
        Except.bind, pure, Except.pure]
      rfl

/-- A truth value that is written is read back. -/
theorem boolean_round_trip (b : Bool) : decodeBoolean (encodeBoolean b) = .ok b := by cases b <;> rfl

/-- The texts of truth values. -/
theorem boolean_read (s : Str) (b : Bool) : decodeBoolean s = .ok b ↔
    (s ∈ ["true".toList, "1".toList] ∧ b = true) ∨ (s ∈ ["false".toList, "0".toList] ∧ b = false) := by
  unfold decodeBoolean
  constructor
  · intro h
    split at h
    · rename_i hs; subst hs; left; exact ⟨by decide, (Except.ok.inj h).symm⟩
    · split at h
      · rename_i hs; subst hs; right; exact ⟨by decide, (Except.ok.inj h).symm⟩
      · split at h
        · rename_i hs; subst hs; left; exact ⟨by decide, (Except.ok.inj h).symm⟩
        · split at h
          · rename_i hs; subst hs; right; exact ⟨by decide, (Except.ok.inj h).symm⟩
          · cases h
  · rintro (⟨h, rfl⟩ | ⟨h, rfl⟩)
    · simp only [List.mem_cons, List.not_mem_nil, or_false] at h
      rcases h with rfl | rfl <;> decide
    · simp only [List.mem_cons, List.not_mem_nil, or_false] at h
      rcases h with rfl | rfl <;> decide

/-- Texts and their numbers. -/
example : DoubleText "-1.5E+2".toList (-150) := by
  have : decodeDouble "-1.5E+2".toList = .ok (-150) := by decide +kernel
  exact (double_read _ _).mp this

example : ¬ ∃ i, IntegerText " 1".toList i := by
  rintro ⟨i, h⟩
  have h' := (integer_read _ _).mpr h
  have : decodeInteger " 1".toList = .error .valueError := by decide
  rw [this] at h'
  cases h'

end Verif.Props
