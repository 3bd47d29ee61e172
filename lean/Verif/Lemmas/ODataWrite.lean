import Verif.Lemmas.ODataGrammar
import Verif.Lemmas.XmlUtils

/-!
# Writing literals (lemmas)
-/

namespace Verif.OData

open Verif Verif.Spec.OData

theorem strNat_digits (n : Nat) : Digits (Py.strNat n) :=
  ⟨XmlUtils.strNat_ne_nil n, List.all_eq_true.1 (XmlUtils.strNat_all n)⟩

theorem strNat_len : ∀ (k n : Nat), n < 10 ^ (k + 1) → (Py.strNat n).length ≤ k + 1
  | 0, n, h => by
    rw [Py.strNat.eq_def, if_pos (by simpa using h)]
    simp
  | k + 1, n, h => by
    rw [Py.strNat.eq_def]
    split
    · simp
    · have := strNat_len k (n / 10) (by
        rw [Nat.pow_succ] at h
        exact Nat.div_lt_of_lt_mul (by omega))
      simp; omega

theorem zero_digits (k n : Nat) : Digits (zeros k n) := by
  refine ⟨by simp [zeros, XmlUtils.strNat_ne_nil], fun c hc => ?_⟩
  rcases List.mem_append.1 hc with h | h
  · rw [(List.mem_replicate.1 h).2]; decide
  · exact (strNat_digits n).2 c h

theorem digitsVal_zeros (j : Nat) (d : Str) : Py.digitsVal 10 (List.replicate j '0' ++ d) = Py.digitsVal 10 d := by
  induction j with
  | zero => rfl
  | succ j ih =>
    rw [List.replicate_succ, List.cons_append]
    unfold Py.digitsVal at *
    rw [List.foldl_cons]
    exact ih

theorem zeros_val (k n : Nat) : Py.digitsVal 10 (zeros k n) = n := by
  rw [zeros, digitsVal_zeros, XmlUtils.strNat_val]

theorem zeros_len {k n : Nat} (h : n < 10 ^ (k + 1)) : (zeros (k + 1) n).length = k + 1 := by
  have := strNat_len k n h
  simp [zeros]; omega

theorem zeros_len_le {j k n : Nat} (h : n < 10 ^ (k + 1)) (hj : j ≤ k) : (zeros (j + 1) n).length ≤ k + 1 := by
  have := strNat_len k n h
  simp [zeros]; omega

theorem zeros_len_ge (k n : Nat) : k ≤ (zeros k n).length := by
  simp [zeros]; omega

theorem doubled_eq : ∀ s : Str, doubled s = s.flatMap (fun c => if c = '\'' then ['\'', '\''] else [c])
  | [] => rfl
  | c :: t => by
    by_cases hc : c = '\''
    · subst hc
      simp only [doubled, List.flatMap_cons, if_true]
      rw [doubled_eq t]
      rfl
    · rw [doubled.eq_3 c t (by intro h; exact hc h), List.flatMap_cons, if_neg hc, doubled_eq t]
      rfl

theorem hexUpper_ok : ∀ n : Fin 16, Py.isHex (hexUpper n.val) = true ∧ Py.hexVal (hexUpper n.val) = n.val := by decide +kernel

theorem hexUpper_mod (n : Nat) : hexUpper n = hexUpper (n % 16) := by simp [hexUpper]

theorem hexUpper_facts (n : Nat) : Py.isHex (hexUpper n) = true ∧ Py.hexVal (hexUpper n) = n % 16 := by
  rw [hexUpper_mod]
  exact hexUpper_ok ⟨n % 16, Nat.mod_lt _ (by decide)⟩

theorem hexLower_ok : ∀ n : Fin 16, Py.isHex (Py.hexDigitChar n.val) = true ∧ Py.hexVal (Py.hexDigitChar n.val) = n.val := by
  decide +kernel

theorem hexLower_facts (n : Nat) : Py.isHex (Py.hexDigitChar n) = true ∧ Py.hexVal (Py.hexDigitChar n) = n % 16 := by
  have : Py.hexDigitChar n = Py.hexDigitChar (n % 16) := by simp [Py.hexDigitChar]
  rw [this]
  exact hexLower_ok ⟨n % 16, Nat.mod_lt _ (by decide)⟩

theorem hexText_hex : ∀ k n, Hex (hexText k n)
  | 0, _ => by intro c hc; cases hc
  | k + 1, n => by
    intro c hc
    rcases List.mem_append.1 hc with h | h
    · exact hexText_hex k _ c h
    · rw [List.mem_singleton.1 h]; exact (hexLower_facts n).1

theorem hexText_len : ∀ k n, (hexText k n).length = k
  | 0, _ => rfl
  | k + 1, n => by rw [hexText, List.length_append, hexText_len k]; rfl

theorem hexText_append (a b n : Nat) : hexText a (n / 16 ^ b) ++ hexText b n = hexText (a + b) n := by
  induction b generalizing n with
  | zero => simp [hexText]
  | succ b ih =>
    show _ ++ (hexText b (n / 16) ++ [Py.hexDigitChar n]) = hexText (a + b) (n / 16) ++ [Py.hexDigitChar n]
    rw [← List.append_assoc, ← ih (n / 16), Nat.div_div_eq_div_mul, Nat.pow_succ, Nat.mul_comm (16 ^ b) 16]

theorem hexText_val : ∀ k n, Py.digitsVal 16 (hexText k n) = n % 16 ^ k
  | 0, n => by simp [hexText, Py.digitsVal, Nat.mod_one]
  | k + 1, n => by
    have ih := hexText_val k (n / 16)
    unfold Py.digitsVal at *
    rw [hexText, List.foldl_append, ih]
    simp only [List.foldl_cons, List.foldl_nil, (hexLower_facts n).2]
    rw [Nat.pow_succ, Nat.mul_comm (16 ^ k) 16, Nat.mod_mul]
    omega

theorem clock_written {h m s : Nat} {f : Str} (ht : TimeOfDay h m s f) (hf : f = []) : Clock (clockText h m s) h m s f := by
  subst hf
  have hb : h < 10 ^ 2 ∧ m < 10 ^ 2 ∧ s < 10 ^ 2 := by
    rcases ht with ⟨h1, h2, h3⟩ | ⟨h1, h2, h3, _⟩ <;> omega
  have := Clock.whole (zero_digits 2 h) (by rw [zeros_len hb.1]; omega) (zero_digits 2 m) (by rw [zeros_len hb.2.1]; omega)
    (zero_digits 2 s) (by rw [zeros_len hb.2.2]; omega)
  simp only [zeros_val] at this
  exact this

theorem intText_sign (n : Int) : intText n = sign (decide (n < 0)) (Py.strNat n.natAbs) ∧
    signed (decide (n < 0)) n.natAbs = n := by
  unfold intText sign signed
  by_cases h : n < 0
  · simp only [h, decide_true, if_true, true_and]; omega
  · simp only [h, decide_false, if_false]
    simp only [Bool.false_eq_true, if_false, true_and]; omega

theorem written_literal {T : Tables} (fin : Bool → Nat → Int → Str) {v : Lit} (h : Sound T v) : Literal T (litText fin v) v := by
  cases v with
  | null => exact .null (t := "null".toList) (by decide +kernel)
  | bool b =>
    cases b
    · exact .false (t := "false".toList) (by decide +kernel)
    · exact .true (t := "true".toList) (by decide +kernel)
  | int32 n =>
    obtain ⟨h1, h2⟩ := h
    obtain ⟨e1, e2⟩ := intText_sign n
    have := Literal.int32 (T := T) (neg := decide (n < 0)) (strNat_digits n.natAbs) (strNat_len 9 _ (show n.natAbs < 10000000000 by omega))
      (by rw [XmlUtils.strNat_val, e2]; exact h1) (by rw [XmlUtils.strNat_val, e2]; exact h2)
    rw [XmlUtils.strNat_val, e2, ← e1] at this
    exact this
  | int64 n =>
    obtain ⟨h1, h2⟩ := h
    obtain ⟨e1, e2⟩ := intText_sign n
    have := Literal.int64 (T := T) (neg := decide (n < 0)) (c := 'L') (strNat_digits n.natAbs) (strNat_len 18 _ (show n.natAbs < 10000000000000000000 by omega))
      (Or.inl rfl) (by rw [XmlUtils.strNat_val, e2]; exact h1) (by rw [XmlUtils.strNat_val, e2]; exact h2)
    rw [XmlUtils.strNat_val, e2] at this
    have e3 : intText n ++ ['L'] = sign (decide (n < 0)) (Py.strNat n.natAbs ++ ['L']) := by
      rw [e1]
      cases decide (n < 0) <;> rfl
    show Literal T (intText n ++ ['L']) _
    rw [e3]; exact this
  | decimal neg c scale =>
    obtain ⟨h1, h2⟩ := h
    have hd := zero_digits (scale + 1) c
    have hl : (zeros (scale + 1) c).length ≤ 29 + scale :=
      Nat.le_trans (zeros_len_le (k := 28 + scale) (by rw [show 28 + scale + 1 = 29 + scale by omega]; exact h2) (by omega))
        (by omega)
    have hg := zeros_len_ge (scale + 1) c
    have hv := zeros_val (scale + 1) c
    have hp : ∀ x : Str, (if neg then ['-'] else []) ++ x = sign neg x := by intro x; cases neg <;> rfl
    unfold litText decimalText
    dsimp only
    rw [hp]
    generalize zeros (scale + 1) c = d at *
    by_cases h0 : scale = 0
    · subst h0
      rw [if_pos rfl]
      have := Literal.whole (T := T) (neg := neg) (c := 'M') hd (by omega) (Or.inl rfl)
      rw [hv] at this
      have e : sign neg d ++ ['M'] = sign neg (d ++ ['M']) := by cases neg <;> rfl
      rw [e]; exact this
    · rw [if_neg h0]
      have ha : Digits (d.take (d.length - scale)) :=
        ⟨by intro h; have h := congrArg List.length h; rw [List.length_take, List.length_nil] at h; omega, fun c hc => hd.2 c (List.mem_of_mem_take hc)⟩
      have hb : Digits (d.drop (d.length - scale)) :=
        ⟨by intro h; have h := congrArg List.length h; rw [List.length_drop, List.length_nil] at h; omega, fun c hc => hd.2 c (List.mem_of_mem_drop hc)⟩
      have := Literal.decimal (T := T) (neg := neg) (c := 'M') ha (by simp; omega) hb (by simp; omega) (Or.inl rfl)
      rw [List.take_append_drop, hv, show (d.drop (d.length - scale)).length = scale by simp; omega] at this
      have e : ∀ a b : Str, sign neg (a ++ '.' :: b) ++ ['M'] = sign neg (a ++ '.' :: (b ++ ['M'])) := by
        intro a b; cases neg <;> simp [sign]
      rw [e]; exact this
  | double x =>
    cases x with
    | nan => exact .nanDouble (t := "nanD".toList) (by decide +kernel)
    | inf neg =>
      cases neg
      · exact .infDouble (t := "infD".toList) (by decide +kernel)
      · exact .negInfDouble (t := ['i', 'n', 'f']) (c := 'D') (by decide +kernel) (Or.inl rfl)
    | fin a b c => exact absurd rfl (h a b c)
  | single x =>
    cases x with
    | nan => exact .nanSingle (t := "nanF".toList) (by decide +kernel)
    | inf neg =>
      cases neg
      · exact .infSingle (t := "infF".toList) (by decide +kernel)
      · exact .negInfSingle (t := ['i', 'n', 'f']) (c := 'F') (by decide +kernel) (Or.inl rfl)
    | fin a b c => exact absurd rfl (h a b c)
  | string s =>
    show Literal T ('\'' :: (doubled s ++ ['\''])) _
    rw [doubled_eq]
    exact .string
  | binary b =>
    have h : ∀ n ∈ b, n < 256 := h
    have := Literal.binary (T := T) (p := ['X']) (b := b.map fun n => (hexUpper (n / 16), hexUpper n)) (Or.inl rfl) (by
      intro x hx
      obtain ⟨n, _, rfl⟩ := List.mem_map.1 hx
      exact ⟨(hexUpper_facts _).1, (hexUpper_facts _).1⟩)
    have e1 : (b.map fun n => (hexUpper (n / 16), hexUpper n)).flatMap (fun x => [x.1, x.2]) = bytesText b := by
      unfold bytesText
      rw [List.flatMap_map]
    have e2 : (b.map fun n => (hexUpper (n / 16), hexUpper n)).map (fun x => 16 * Py.hexVal x.1 + Py.hexVal x.2) = b := by
      rw [List.map_map]
      have : ∀ n ∈ b, ((fun x : Char × Char => 16 * Py.hexVal x.1 + Py.hexVal x.2) ∘ fun n => (hexUpper (n / 16), hexUpper n)) n = id n := by
        intro n hn
        have := h n hn
        simp only [Function.comp, (hexUpper_facts _).2, id]
        omega
      rw [List.map_congr_left this, List.map_id]
    rw [e1, e2] at this
    exact this
  | guid n =>
    have h : n < 16 ^ 32 := h
    have := Literal.guid (T := T) (p := ['g', 'u', 'i', 'd']) (by decide +kernel)
      (hexText_hex 8 (n / 16 ^ 24)) (hexText_len _ _) (hexText_hex 4 (n / 16 ^ 20)) (hexText_len _ _)
      (hexText_hex 4 (n / 16 ^ 16)) (hexText_len _ _) (hexText_hex 4 (n / 16 ^ 12)) (hexText_len _ _)
      (hexText_hex 12 n) (hexText_len _ _)
    have e : hexText 8 (n / 16 ^ 24) ++ hexText 4 (n / 16 ^ 20) ++ hexText 4 (n / 16 ^ 16) ++ hexText 4 (n / 16 ^ 12) ++
        hexText 12 n = hexText 32 n := by
      have d1 : n / 16 ^ 24 = n / 16 ^ 20 / 16 ^ 4 := by rw [Nat.div_div_eq_div_mul]
      have d2 : n / 16 ^ 20 = n / 16 ^ 16 / 16 ^ 4 := by rw [Nat.div_div_eq_div_mul]
      have d3 : n / 16 ^ 16 = n / 16 ^ 12 / 16 ^ 4 := by rw [Nat.div_div_eq_div_mul]
      rw [d1, hexText_append, d2, hexText_append, d3, hexText_append, hexText_append]
    rw [e, hexText_val, Nat.mod_eq_of_lt h] at this
    have e2 : "guid'".toList ++ guidText n ++ ['\''] = ['g', 'u', 'i', 'd'] ++ '\'' :: (guidText n ++ ['\'']) := by
      rw [show "guid'".toList = ['g', 'u', 'i', 'd', '\''] from rfl]
      simp
    show Literal T ("guid'".toList ++ guidText n ++ ['\'']) _
    rw [e2]
    simpa only [guidText, List.append_assoc, List.cons_append] using this
  | dateTime d hh m s f =>
    obtain ⟨y, mo, da, rfl, h1, h2, h3, h4, h5, h6, h7, h8⟩ := h
    have hda := daysIn_le y mo
    have := Literal.dateTime (T := T) (p := ['d', 'a', 't', 'e', 't', 'i', 'm', 'e']) (by decide +kernel)
      (zero_digits 4 y) (zeros_len (by omega)) (zero_digits 2 mo) (by rw [zeros_len (by omega)]; omega)
      (zero_digits 2 da) (by rw [zeros_len (by omega)]; omega) (clock_written h7 h8)
      (by rw [zeros_val]; exact h1) (by rw [zeros_val]; exact h3) (by rw [zeros_val]; exact h4)
      (by rw [zeros_val]; exact h5) (by rw [zeros_val, zeros_val, zeros_val]; exact h6) h7
    simp only [zeros_val] at this
    have ey : (Cal.Date.absYear { century := (y / 100 : Nat), year := (y % 100 : Nat), month := (mo : Nat), day := (da : Nat) }).toNat = y := by
      simp only [Cal.Date.absYear]; omega
    show Literal T ("datetime'".toList ++ zeros 4 (Cal.Date.absYear _).toNat ++ '-' :: (zeros 2 ((mo : Int).toNat) ++ '-' ::
      (zeros 2 ((da : Int).toNat) ++ 'T' :: (clockText hh m s ++ ['\''])))) _
    rw [ey]
    simp only [Int.toNat_natCast]
    have e2 : "datetime'".toList = ['d', 'a', 't', 'e', 't', 'i', 'm', 'e', '\''] := rfl
    rw [e2]
    simpa only [List.append_assoc, List.cons_append, List.nil_append] using this
  | time hh m s f =>
    obtain ⟨h7, h8⟩ := h
    have := Literal.time (T := T) (p := ['t', 'i', 'm', 'e']) (by decide +kernel) (clock_written h7 h8) h7
    have e2 : "time'".toList = ['t', 'i', 'm', 'e', '\''] := rfl
    show Literal T ("time'".toList ++ clockText hh m s ++ ['\'']) _
    rw [e2]
    simpa only [List.append_assoc, List.cons_append, List.nil_append] using this
  | offset t =>
    obtain ⟨h1, h2⟩ := h
    have := Literal.offset (T := T) (p := "datetimeoffset".toList) (by decide +kernel) h1 h2
    have e2 : "datetimeoffset'".toList = "datetimeoffset".toList ++ ['\''] := rfl
    show Literal T ("datetimeoffset'".toList ++ t ++ ['\'']) _
    rw [e2]
    simpa only [List.append_assoc, List.cons_append, List.nil_append] using this

end Verif.OData
