import Verif.Lemmas.ODataRead

/-!
# Reading literals (continued)
-/

namespace Verif.OData

open Verif Verif.Spec.OData

theorem Digits.noHead {d rest : Str} {p : Char → Bool} (hd : Digits d) (h : ∀ c, Py.isDigit c = true → p c = false) :
    NoHead p (d ++ rest) := noHead_append hd.1 (fun c hc => h c (hd.2 c hc))

theorem requireChar_self (c : Char) (t : Str) : requireChar c (c :: t) = .ok t := by
  simp [requireChar, parseChar_self]

theorem quoted_read {p : Str → Except Fault (Lit × Str)} {t rest : Str} {v : Lit} (h : p t = .ok (v, '\'' :: rest)) :
    quoted p ('\'' :: t) = .ok (some v, rest) := by
  simp only [quoted, requireChar_self]
  show Except.bind (p t) _ = _
  rw [h]
  simp only [Except.bind, requireChar_self]
  rfl

theorem pairs_hex {b : List (Char × Char)} (hb : ∀ x ∈ b, Py.isHex x.1 = true ∧ Py.isHex x.2 = true) :
    ∀ c ∈ b.flatMap (fun x => [x.1, x.2]), Py.isHex c = true := by
  intro c hc
  obtain ⟨x, hx, hc⟩ := List.mem_flatMap.1 hc
  rcases List.mem_cons.1 hc with rfl | hc
  · exact (hb x hx).1
  · rw [List.mem_singleton.1 hc]; exact (hb x hx).2

theorem bytesOf_pairs : ∀ (b : List (Char × Char)),
    bytesOf (b.flatMap fun x => [x.1, x.2]) = .ok (b.map fun x => 16 * Py.hexVal x.1 + Py.hexVal x.2)
  | [] => rfl
  | x :: b => by
    simp only [List.flatMap_cons, List.cons_append, List.nil_append, bytesOf]
    rw [bytesOf_pairs b]
    simp only [Except.map, List.map_cons, Py.digitsVal, List.foldl_cons, List.foldl_nil]
    congr 3
    omega

theorem parseBinary_read {b : List (Char × Char)} {rest : Str} (hb : ∀ x ∈ b, Py.isHex x.1 = true ∧ Py.isHex x.2 = true)
    (hr : NoHead Py.isHex rest) : parseBinary (b.flatMap (fun x => [x.1, x.2]) ++ rest) =
      .ok (.binary (b.map fun x => 16 * Py.hexVal x.1 + Py.hexVal x.2), rest) := by
  unfold parseBinary
  rw [(takeWhile_all (pairs_hex hb) hr).1, (takeWhile_all (pairs_hex hb) hr).2, bytesOf_pairs]
  rfl

theorem requireHex_read {k : Nat} {d rest : Str} (hd : Hex d) (hk : d.length = k) :
    requireHex k (d ++ rest) = .ok (d, rest) := by
  unfold requireHex
  rw [exactly_all hd hk]

theorem parseGuid_read {a b c d e rest : Str} (ha : Hex a) (ha' : a.length = 8) (hb : Hex b) (hb' : b.length = 4) (hc : Hex c)
    (hc' : c.length = 4) (hd : Hex d) (hd' : d.length = 4) (he : Hex e) (he' : e.length = 12) :
    parseGuid (a ++ '-' :: (b ++ '-' :: (c ++ '-' :: (d ++ '-' :: (e ++ rest))))) =
      .ok (.guid (Py.digitsVal 16 (a ++ b ++ c ++ d ++ e)), rest) := by
  unfold parseGuid
  simp only [bind_eq, requireHex_read ha ha', requireHex_read hb hb', requireHex_read hc hc', requireHex_read hd hd',
    requireHex_read he he', requireChar_self, Except.bind, parseChar_self]
  rfl

theorem parseSeconds_none {rest : Str} (hr : NoHead (· == ':') rest) : parseSeconds rest = .ok (some ((0, []), rest)) := by
  unfold parseSeconds
  rw [parseChar_none hr]

theorem parseSeconds_whole {s rest : Str} (hs : Digits s) (hl : s.length ≤ 2) (hv : Py.digitsVal 10 s ≤ 60)
    (hr : NoHead Py.isDigit rest) (hp : NoHead (· == '.') rest) :
    parseSeconds (':' :: (s ++ rest)) = .ok (some ((Py.digitsVal 10 s, []), rest)) := by
  unfold parseSeconds
  rw [parseChar_self]
  dsimp only
  rw [parseInteger_two hs hl hr (Nat.zero_le _) hv]
  dsimp only
  rw [parseChar_none hp]

theorem parseSeconds_frac {s f rest : Str} (hs : Digits s) (hl : s.length ≤ 2) (hv : Py.digitsVal 10 s ≤ 60)
    (hf : Digits f) (hfl : f.length ≤ 7) (hr : NoHead Py.isDigit rest) :
    parseSeconds (':' :: (s ++ '.' :: (f ++ rest))) = .ok (some ((Py.digitsVal 10 s, f), rest)) := by
  unfold parseSeconds
  rw [parseChar_self]
  dsimp only
  rw [parseInteger_two hs hl (noHead_cons (by decide)) (Nat.zero_le _) hv]
  dsimp only
  rw [parseChar_self]
  dsimp only
  simp only [upTo_all hf.2 hfl (fun _ => hr), hf.1, if_false]

theorem Clock.digit {t f : Str} {h m s : Nat} (hc : Clock t h m s f) : ∃ c u, t = c :: u ∧ Py.isDigit c = true := by
  have : ∀ {d r : Str}, Digits d → ∃ c u, d ++ r = c :: u ∧ Py.isDigit c = true := by
    intro d r hd
    cases d with
    | nil => exact absurd rfl hd.1
    | cons c u => exact ⟨c, u ++ r, rfl, hd.2 c (by simp)⟩
  cases hc with
  | short h1 => exact this h1
  | whole h1 => exact this h1
  | fraction h1 => exact this h1

theorem parseClock_read {t f rest : Str} {h m s : Nat} (hc : Clock t h m s f) (ht : TimeOfDay h m s f)
    (hr : NoHead Py.isDigit rest) (hp : NoHead (· == '.') rest) (hq : NoHead (· == ':') rest) :
    parseClock (t ++ rest) = .ok (some ((h, m, s, f), rest)) := by
  have key : ∀ {hd md : Str} {s : Nat} {f tail : Str}, Digits hd → Digits md → md.length ≤ 2 →
      Py.digitsVal 10 hd ≤ 24 → Py.digitsVal 10 md ≤ 60 → NoHead Py.isDigit tail →
      parseSeconds tail = .ok (some ((s, f), rest)) →
      parseClock (hd ++ ':' :: (md ++ tail)) = .ok (some ((Py.digitsVal 10 hd, Py.digitsVal 10 md, s, f), rest)) := by
    intro hd md s f tail h1 h2 h3 h4 h5 h6 h7
    unfold parseClock
    rw [parseInteger_any h1 (noHead_cons (by decide)) (Nat.zero_le _) h4]
    dsimp only
    rw [parseChar_self]
    dsimp only
    rw [parseInteger_two h2 h3 h6 (Nat.zero_le _) h5]
    dsimp only
    rw [h7]
    rfl
  have hh : h ≤ 24 ∧ m ≤ 60 ∧ s ≤ 60 := by
    rcases ht with ⟨h1, h2, h3⟩ | ⟨h1, h2, h3, _⟩ <;> omega
  cases hc with
  | short h1 h2 h3 h4 =>
    rw [List.append_assoc, List.cons_append]
    exact key h1 h3 h4 hh.1 hh.2.1 hr (parseSeconds_none hq)
  | whole h1 h2 h3 h4 h5 h6 =>
    simp only [List.append_assoc, List.cons_append]
    exact key h1 h3 h4 hh.1 hh.2.1 (noHead_cons (by decide)) (parseSeconds_whole h5 h6 hh.2.2 hr hp)
  | fraction h1 h2 h3 h4 h5 h6 h7 h8 =>
    simp only [List.append_assoc, List.cons_append]
    exact key h1 h3 h4 hh.1 hh.2.1 (noHead_cons (by decide)) (parseSeconds_frac h5 h6 hh.2.2 h7 h8 hr)

theorem clockOk_of {h m s : Nat} {f : Str} (ht : TimeOfDay h m s f) : clockOk h m s f = true := by
  unfold clockOk Cal.checkTime
  simp only [bind, Except.bind]
  rcases ht with ⟨h1, h2, h3⟩ | ⟨h1, h2, h3, h4⟩
  · rw [if_neg (by omega), if_neg (by omega), if_neg (by omega), if_neg (by omega)]
    simp; omega
  · subst h1; subst h2; subst h3
    rw [if_neg (by decide), if_neg (by decide), if_neg (by decide), if_neg (by decide)]
    simp only [beq_self_eq_true, Bool.true_and, Bool.not_eq_true', List.any_eq_false]
    intro c hc
    simp [h4 c hc]

theorem month_size {y m : Nat} (h1 : 1 ≤ m) (h2 : m ≤ 12) :
    (Cal.monthSizes (Cal.leapYear (((y / 100 : Nat) : Int) * 100 + ((y % 100 : Nat) : Int))))[((m : Int) - 1).toNat]! = daysIn y m := by
  have hy : (((y / 100 : Nat) : Int) * 100 + ((y % 100 : Nat) : Int)) = (y : Int) := by omega
  rw [hy]
  have hl : Cal.leapYear (y : Int) = decide ((y % 4 = 0 ∧ y % 100 ≠ 0) ∨ y % 400 = 0) := by
    unfold Cal.leapYear
    by_cases a : y % 4 = 0 <;> by_cases b : y % 100 = 0 <;> by_cases c : y % 400 = 0 <;>
      (first | omega | (have a' : (y : Int) % 4 = 0 := by omega) | (have a' : (y : Int) % 4 ≠ 0 := by omega)) <;>
      (first | omega | (have b' : (y : Int) % 100 = 0 := by omega) | (have b' : (y : Int) % 100 ≠ 0 := by omega)) <;>
      (first | omega | (have c' : (y : Int) % 400 = 0 := by omega) | (have c' : (y : Int) % 400 ≠ 0 := by omega)) <;>
      simp [a, b, c, a', b', c']
  rw [hl]
  unfold daysIn
  have hm : m = 1 ∨ m = 2 ∨ m = 3 ∨ m = 4 ∨ m = 5 ∨ m = 6 ∨ m = 7 ∨ m = 8 ∨ m = 9 ∨ m = 10 ∨ m = 11 ∨ m = 12 := by omega
  by_cases hp : (y % 4 = 0 ∧ y % 100 ≠ 0) ∨ y % 400 = 0
  · simp only [hp, decide_true, if_true]
    rcases hm with rfl | rfl | rfl | rfl | rfl | rfl | rfl | rfl | rfl | rfl | rfl | rfl <;> rfl
  · simp only [hp, decide_false, if_false]
    rcases hm with rfl | rfl | rfl | rfl | rfl | rfl | rfl | rfl | rfl | rfl | rfl | rfl <;> rfl

theorem pCheck_of {y m d : Nat} (hy : 1 ≤ y) (hy' : y < 10000) (hm : 1 ≤ m) (hm' : m ≤ 12) (hd : 1 ≤ d) (hd' : d ≤ daysIn y m) :
    Cal.pCheck { century := (y / 100 : Nat), year := (y % 100 : Nat), month := (m : Nat), day := (d : Nat) } =
      .ok { century := (y / 100 : Nat), year := (y % 100 : Nat), month := (m : Nat), day := (d : Nat) } := by
  unfold Cal.pCheck
  dsimp only
  rw [month_size hm hm', if_neg (by omega), if_neg (by omega), if_neg (by omega), if_neg (by omega), if_neg (by omega)]

theorem daysIn_le (y m : Nat) : daysIn y m ≤ 31 := by
  unfold daysIn
  repeat' split
  all_goals omega

theorem parseCalendar_read {y mo d rest : Str} (hy : Digits y) (hy' : y.length = 4) (hm : Digits mo)
    (hd : Digits d) (hd' : d.length ≤ 2) (h1 : 1 ≤ Py.digitsVal 10 mo) (h2 : Py.digitsVal 10 mo ≤ 12)
    (h3 : 1 ≤ Py.digitsVal 10 d) (h4 : Py.digitsVal 10 d ≤ 31) :
    parseCalendar (y ++ '-' :: (mo ++ '-' :: (d ++ 'T' :: rest))) =
      some ((Py.digitsVal 10 y, Py.digitsVal 10 mo, Py.digitsVal 10 d), rest) := by
  unfold parseCalendar
  have n1 : NoHead Py.isDigit ('-' :: (d ++ 'T' :: rest)) := noHead_cons (by decide)
  have n2 : NoHead Py.isDigit ('T' :: rest) := noHead_cons (by decide)
  simp only [exactly_all hy.2 hy', parseChar_self, parseInteger_any hm n1 h1 h2,
    parseInteger_two hd hd' n2 h3 h4, Option.bind_eq_bind, Option.bind_some]
  rfl

theorem parseDateTime_read {y mo d clock f rest : Str} {h m s : Nat} (hy : Digits y) (hy' : y.length = 4) (hm : Digits mo)
    (hd : Digits d) (hd' : d.length ≤ 2) (hc : Clock clock h m s f) (h0 : 1 ≤ Py.digitsVal 10 y)
    (h1 : 1 ≤ Py.digitsVal 10 mo) (h2 : Py.digitsVal 10 mo ≤ 12) (h3 : 1 ≤ Py.digitsVal 10 d)
    (h4 : Py.digitsVal 10 d ≤ daysIn (Py.digitsVal 10 y) (Py.digitsVal 10 mo)) (ht : TimeOfDay h m s f)
    (hr : NoHead Py.isDigit rest) (hp : NoHead (· == '.') rest) (hq : NoHead (· == ':') rest) :
    parseDateTime (y ++ '-' :: (mo ++ '-' :: (d ++ 'T' :: (clock ++ rest)))) =
      .ok (.dateTime { century := (Py.digitsVal 10 y / 100 : Nat), year := (Py.digitsVal 10 y % 100 : Nat),
                       month := Py.digitsVal 10 mo, day := Py.digitsVal 10 d } h m s f, rest) := by
  have hyv := digitsVal_lt hy.2
  rw [hy'] at hyv
  have hdl := daysIn_le (Py.digitsVal 10 y) (Py.digitsVal 10 mo)
  unfold parseDateTime
  rw [parseCalendar_read hy hy' hm hd hd' h1 h2 h3 (by omega)]
  dsimp only
  rw [parseClock_read hc ht hr hp hq]
  simp only [Except.bind]
  have hpc := pCheck_of h0 (by omega) h1 h2 h3 h4
  simp only [Int.natCast_ediv, Int.natCast_emod] at hpc ⊢
  rw [show ((100 : Nat) : Int) = 100 from rfl] at hpc
  rw [hpc]
  simp only [clockOk_of ht, if_true]
  rfl

theorem parseTime_read {clock f rest : Str} {h m s : Nat} (hc : Clock clock h m s f) (ht : TimeOfDay h m s f)
    (hr : NoHead Py.isDigit rest) (hp : NoHead (· == '.') rest) (hq : NoHead (· == ':') rest) :
    parseTime (clock ++ rest) = .ok (.time h m s f, rest) := by
  unfold parseTime
  rw [parseClock_read hc ht hr hp hq]
  simp only [Except.bind, clockOk_of ht, if_true]

theorem parseOffset_read {T : Tables} {t rest : Str} (h1 : '\'' ∉ t) (h2 : T.offset t = true) :
    parseOffset T ('\'' :: (t ++ '\'' :: rest)) = .ok (some (.offset t), rest) := by
  have ht : ∀ c ∈ t, (c != '\'') = true := by
    intro c hc
    simp only [bne_iff_ne, ne_eq]
    rintro rfl
    exact h1 hc
  have hn : NoHead (· != '\'') ('\'' :: rest) := noHead_cons (by decide)
  unfold parseOffset
  simp only [requireChar_self, bind_eq, Except.bind, (takeWhile_all ht hn).1, (takeWhile_all ht hn).2, h2, if_true]
  rfl

theorem parseInsensitive_of {low t rest : Str} (h : Py.lower t = low) (h0 : low ≠ []) :
    parseInsensitive low (t ++ rest) = some rest := by
  have hl : low.length = t.length := by rw [← h]; simp [Py.lower]
  have ht : t ≠ [] := by rintro rfl; exact h0 h.symm
  unfold parseInsensitive
  rw [hl, List.take_left' rfl, List.drop_left' rfl, if_pos ⟨by simp [ht], h⟩]

/-- A minus and `inf` with its suffix. -/
theorem negInf_read {T : Tables} {t : Str} {c : Char} {rest : Str} (h : Py.lower t = "inf".toList) :
    uriLiteral T ('-' :: (t ++ c :: rest)) =
      if c = 'D' ∨ c = 'd' then .ok (some (.double (.inf true)), rest)
      else if c = 'F' ∨ c = 'f' then .ok (some (.single (.inf true)), rest)
      else .error .valueError := by
  have h' : Py.lower t = ['i', 'n', 'f'] := h
  rw [number_literal (Or.inl rfl)]
  unfold parseNumber parseNumeric parseSign
  rw [parseChar_self]
  dsimp only
  rw [parseInsensitive_of h' (by decide)]
  dsimp only
  have e1 : setDouble { neg := true, special := some false, l := [], r := none, e := none } = .ok (.double (.inf true)) := rfl
  have e2 : setSingle { neg := true, special := some false, l := [], r := none, e := none } = .ok (.single (.inf true)) := rfl
  have e3 : setDecimal { neg := true, special := some false, l := [], r := none, e := none } = .error .valueError := rfl
  have e4 : ∀ a b, setInteger a b { neg := true, special := some false, l := [], r := none, e := none } = .error .valueError := by
    intro a b; simp [setInteger]
  rw [e1, e2, e3, e4, e4]
  simp only [Except.map]
  repeat' split
  all_goals rfl

theorem singleMax : (2 ^ 24 - 1) * 2 ^ 104 ≤ 2 ^ 1024 - 2 ^ 970 := by decide +kernel

/-- Every literal is read as its value. -/
theorem literal_read {T : Tables} {t rest : Str} {v : Lit} (hv : Literal T t v) (hr : Sep rest) :
    uriLiteral T (t ++ rest) = .ok (some v, rest) := by
  have q0 : ∀ {r : Str}, Ends T ('\'' :: r) := fun {r} => ends_cons (by decide) (by decide) (by decide)
  have d1 : NoHead Py.isDigit rest := hr.noHead (by decide) (by decide) (by decide) (by decide) (by decide)
  have d2 : NoHead (· == '.') rest := hr.noHead (by decide) (by decide) (by decide) (by decide) (by decide)
  have d3 : NoHead (fun c => c == 'e' || c == 'E') rest := hr.noHead (by decide) (by decide) (by decide) (by decide) (by decide)
  have noExp : ExpOk none := by intro m neg x h; cases h
  have word : ∀ {n low : Str} {kw : Keyword} {tail : Str}, (low, kw) ∈ keywords → Py.lower n = low → Ends T tail →
      uriLiteral T (n ++ tail) = namedLiteral T (n ++ tail) n tail ∧ keyword n = kw := fun a b c => word_read a b c
  cases hv with
  | null h =>
    have := word (tail := rest) (kw := .null) (by decide) h hr.ends
    rw [this.1, namedLiteral, this.2]
  | true h =>
    have := word (tail := rest) (kw := .true) (by decide) h hr.ends
    rw [this.1, namedLiteral, this.2]
  | false h =>
    have := word (tail := rest) (kw := .false) (by decide) h hr.ends
    rw [this.1, namedLiteral, this.2]
  | nanDouble h =>
    have := word (tail := rest) (kw := .nand) (by decide) h hr.ends
    rw [this.1, namedLiteral, this.2]
  | infDouble h =>
    have := word (tail := rest) (kw := .infd) (by decide) h hr.ends
    rw [this.1, namedLiteral, this.2]
  | nanSingle h =>
    have := word (tail := rest) (kw := .nanf) (by decide) h hr.ends
    rw [this.1, namedLiteral, this.2]
  | infSingle h =>
    have := word (tail := rest) (kw := .inff) (by decide) h hr.ends
    rw [this.1, namedLiteral, this.2]
  | @int32 neg d hd hl h1 h2 =>
    have hs : sign neg d ++ rest = sign neg (d ++ (pointText none ++ (expText none ++ rest))) := by cases neg <;> simp [sign, pointText, expText]
    have hb : ((2 ^ 31 : Nat) : Int) = 2147483648 := by decide
    rw [hs, number_read hd (by simp) noExp d1 d2 d3]
    simp only [Option.map_none]
    rw [setInteger_ok hd hl (by rw [hb]; exact h1) (by rw [hb]; omega)]
    cases rest with
    | nil => rfl
    | cons c u =>
      rcases hr c u rfl with rfl | rfl | rfl | rfl | rfl <;> rfl
  | @int64 neg d c hd hl hc h1 h2 =>
    have hb : ((2 ^ 63 : Nat) : Int) = 9223372036854775808 := by decide
    have hs : sign neg (d ++ [c]) ++ rest = sign neg (d ++ (pointText none ++ (expText none ++ (c :: rest)))) := by
      cases neg <;> simp [sign, pointText, expText]
    have n1 : NoHead Py.isDigit (c :: rest) := noHead_cons (by rcases hc with rfl | rfl <;> decide)
    have n2 : NoHead (· == '.') (c :: rest) := noHead_cons (by rcases hc with rfl | rfl <;> decide)
    have n3 : NoHead (fun c => c == 'e' || c == 'E') (c :: rest) := noHead_cons (by rcases hc with rfl | rfl <;> decide)
    rw [hs, number_read hd (by simp) noExp n1 n2 n3]
    simp only [Option.map_none]
    rw [if_neg (by rcases hc with rfl | rfl <;> decide), if_neg (by rcases hc with rfl | rfl <;> decide),
      if_neg (by rcases hc with rfl | rfl <;> decide), if_pos hc,
      setInteger_ok hd hl (by rw [hb]; exact h1) (by rw [hb]; omega)]
    rfl
  | @whole neg d c hd hl hc =>
    have hs : sign neg (d ++ [c]) ++ rest = sign neg (d ++ (pointText none ++ (expText none ++ (c :: rest)))) := by
      cases neg <;> simp [sign, pointText, expText]
    have n1 : NoHead Py.isDigit (c :: rest) := noHead_cons (by rcases hc with rfl | rfl <;> decide)
    have n2 : NoHead (· == '.') (c :: rest) := noHead_cons (by rcases hc with rfl | rfl <;> decide)
    have n3 : NoHead (fun c => c == 'e' || c == 'E') (c :: rest) := noHead_cons (by rcases hc with rfl | rfl <;> decide)
    rw [hs, number_read hd (by simp) noExp n1 n2 n3]
    simp only [Option.map_none]
    rw [if_neg (by rcases hc with rfl | rfl <;> decide), if_neg (by rcases hc with rfl | rfl <;> decide), if_pos hc,
      setDecimal, if_neg (by simp; omega)]
    simp [Except.map]
  | @decimal neg d f c hd hl hf hfl hc =>
    have hs : sign neg (d ++ '.' :: (f ++ [c])) ++ rest = sign neg (d ++ (pointText (some f) ++ (expText none ++ (c :: rest)))) := by
      cases neg <;> simp [sign, pointText, expText]
    have n1 : NoHead Py.isDigit (c :: rest) := noHead_cons (by rcases hc with rfl | rfl <;> decide)
    have n2 : NoHead (· == '.') (c :: rest) := noHead_cons (by rcases hc with rfl | rfl <;> decide)
    have n3 : NoHead (fun c => c == 'e' || c == 'E') (c :: rest) := noHead_cons (by rcases hc with rfl | rfl <;> decide)
    rw [hs, number_read hd (by simp [hf]) noExp n1 n2 n3]
    simp only [Option.map_none]
    rw [if_neg (by rcases hc with rfl | rfl <;> decide), if_neg (by rcases hc with rfl | rfl <;> decide), if_pos hc,
      setDecimal, if_neg (by simp [hf.1]; omega)]
    simp [Except.map]
  | @double neg d f c hd hf hl hc =>
    have hs : sign neg (d ++ '.' :: (f ++ [c])) ++ rest = sign neg (d ++ (pointText (some f) ++ (expText none ++ (c :: rest)))) := by
      cases neg <;> simp [sign, pointText, expText]
    have n1 : NoHead Py.isDigit (c :: rest) := noHead_cons (by rcases hc with rfl | rfl <;> decide)
    have n2 : NoHead (· == '.') (c :: rest) := noHead_cons (by rcases hc with rfl | rfl <;> decide)
    have n3 : NoHead (fun c => c == 'e' || c == 'E') (c :: rest) := noHead_cons (by rcases hc with rfl | rfl <;> decide)
    have hx := exceeds_below (below_digits (d := d) (f := f) (n := 308) (B := 2 ^ 1024 - 2 ^ 970)
      (by intro x hx; rcases List.mem_append.1 hx with h | h
          · exact hd.2 x h
          · exact hf.2 x h) hl (by decide +kernel))
    rw [hs, number_read hd (by simp [hf]) noExp n1 n2 n3]
    simp only [Option.map_none]
    rw [if_pos hc]
    have : setDouble { neg := neg, special := none, l := d, r := some f, e := none } =
        .ok (.double (.fin neg (Py.digitsVal 10 (d ++ f)) (-f.length))) := by
      unfold setDouble
      dsimp only
      rw [if_neg (by simp)]
      simp only [Numeric.flt, Option.getD_some, toDouble, Int.zero_sub, hx]
      rfl
    rw [this]
    rfl
  | @single neg d f c hd hf hl hc =>
    have hs : sign neg (d ++ '.' :: (f ++ [c])) ++ rest = sign neg (d ++ (pointText (some f) ++ (expText none ++ (c :: rest)))) := by
      cases neg <;> simp [sign, pointText, expText]
    have n1 : NoHead Py.isDigit (c :: rest) := noHead_cons (by rcases hc with rfl | rfl <;> decide)
    have n2 : NoHead (· == '.') (c :: rest) := noHead_cons (by rcases hc with rfl | rfl <;> decide)
    have n3 : NoHead (fun c => c == 'e' || c == 'E') (c :: rest) := noHead_cons (by rcases hc with rfl | rfl <;> decide)
    have hb := below_digits (d := d) (f := f) (n := 38) (B := (2 ^ 24 - 1) * 2 ^ 104)
      (by intro x hx; rcases List.mem_append.1 hx with h | h
          · exact hd.2 x h
          · exact hf.2 x h) hl (by decide +kernel)
    rw [hs, number_read hd (by simp [hf]) noExp n1 n2 n3]
    simp only [Option.map_none]
    rw [if_neg (by rcases hc with rfl | rfl <;> decide), if_pos hc]
    have : setSingle { neg := neg, special := none, l := d, r := some f, e := none } =
        .ok (.single (.fin neg (Py.digitsVal 10 (d ++ f)) (-f.length))) := by
      unfold setSingle
      dsimp only
      rw [if_neg (by simp), if_neg (by simp)]
      simp only [Numeric.flt, Option.getD_some, toDouble, Int.zero_sub, exceeds_below (below_mono hb singleMax), singleRange,
        Bool.false_eq_true, if_false, exceeds_below hb]
    show Except.map _ (setSingle { neg := neg, special := none, l := d, r := some f, e := none }) = _
    rw [this]
    rfl
  | @doubleWhole neg d c hd hl hc =>
    have hs : sign neg (d ++ [c]) ++ rest = sign neg (d ++ (pointText none ++ (expText none ++ (c :: rest)))) := by
      cases neg <;> simp [sign, pointText, expText]
    have n1 : NoHead Py.isDigit (c :: rest) := noHead_cons (by rcases hc with rfl | rfl <;> decide)
    have n2 : NoHead (· == '.') (c :: rest) := noHead_cons (by rcases hc with rfl | rfl <;> decide)
    have n3 : NoHead (fun c => c == 'e' || c == 'E') (c :: rest) := noHead_cons (by rcases hc with rfl | rfl <;> decide)
    have hx := exceeds_below (below_digits (d := d) (f := []) (n := 308) (B := 2 ^ 1024 - 2 ^ 970)
      (by simpa using hd.2) (by omega) (by decide +kernel))
    rw [hs, number_read hd (by simp) noExp n1 n2 n3]
    simp only [Option.map_none]
    rw [if_pos hc]
    have : setDouble { neg := neg, special := none, l := d, r := none, e := none } =
        .ok (.double (.fin neg (Py.digitsVal 10 d) 0)) := by
      unfold setDouble
      dsimp only
      rw [if_neg (by simp [badExponent]; omega)]
      simp only [List.append_nil, List.length_nil, Int.ofNat_zero, Int.neg_zero] at hx
      simp [Numeric.flt, toDouble, hx]
    rw [this]
    rfl
  | @singleWhole neg d c hd hl hc =>
    have hs : sign neg (d ++ [c]) ++ rest = sign neg (d ++ (pointText none ++ (expText none ++ (c :: rest)))) := by
      cases neg <;> simp [sign, pointText, expText]
    have n1 : NoHead Py.isDigit (c :: rest) := noHead_cons (by rcases hc with rfl | rfl <;> decide)
    have n2 : NoHead (· == '.') (c :: rest) := noHead_cons (by rcases hc with rfl | rfl <;> decide)
    have n3 : NoHead (fun c => c == 'e' || c == 'E') (c :: rest) := noHead_cons (by rcases hc with rfl | rfl <;> decide)
    have hb := below_digits (d := d) (f := []) (n := 38) (B := (2 ^ 24 - 1) * 2 ^ 104)
      (by simpa using hd.2) (by omega) (by decide +kernel)
    have h1 := exceeds_below hb
    have h2 := exceeds_below (below_mono hb singleMax)
    simp only [List.append_nil, List.length_nil, Int.ofNat_zero, Int.neg_zero] at h1 h2
    rw [hs, number_read hd (by simp) noExp n1 n2 n3]
    simp only [Option.map_none]
    rw [if_neg (by rcases hc with rfl | rfl <;> decide), if_pos hc]
    have : setSingle { neg := neg, special := none, l := d, r := none, e := none } =
        .ok (.single (.fin neg (Py.digitsVal 10 d) 0)) := by
      unfold setSingle
      dsimp only
      rw [if_pos rfl, if_neg (by omega)]
      simp [Numeric.flt, toDouble, h2, singleRange, h1]
    rw [this]
    rfl
  | @doubleExp neg eneg d f x m c hd hf hl hx hxl hm hc hb =>
    have hs : sign neg (d ++ '.' :: (f ++ m :: (sign eneg (x ++ [c])))) ++ rest =
        sign neg (d ++ (pointText (some f) ++ (expText (some (m, eneg, x)) ++ (c :: rest)))) := by
      cases neg <;> cases eneg <;> simp [sign, pointText, expText]
    have n1 : NoHead Py.isDigit (c :: rest) := noHead_cons (by rcases hc with rfl | rfl <;> decide)
    have n2 : NoHead (· == '.') (c :: rest) := noHead_cons (by rcases hc with rfl | rfl <;> decide)
    have n3 : NoHead (fun c => c == 'e' || c == 'E') (c :: rest) := noHead_cons (by rcases hc with rfl | rfl <;> decide)
    have ho : ExpOk (some (m, eneg, x)) := by
      intro m' n' x' h
      injection h with h; injection h with h1 h; injection h with h2 h3
      subst h1; subst h3; exact ⟨hm, hx⟩
    rw [hs, number_read hd (by simp [hf]) ho n1 n2 n3]
    simp only [Option.map_some]
    rw [if_pos hc]
    have hbad : badExponent 3 { neg := neg, special := none, l := d, r := some f, e := some (eneg, x) } = false := by
      have hx0 : (x == []) = false := by simpa using hx.1
      have hd0 : (d == []) = false := by simpa using hd.1
      simp [badExponent, hx0, hd0]; omega
    have : setDouble { neg := neg, special := none, l := d, r := some f, e := some (eneg, x) } =
        .ok (.double (.fin neg (Py.digitsVal 10 (d ++ f)) (signed eneg (Py.digitsVal 10 x) - f.length))) := by
      unfold setDouble
      dsimp only
      rw [if_neg (by simp [hbad]; omega)]
      have := exceeds_below hb
      simp only [signed] at this ⊢
      simp only [Numeric.flt, Option.getD_some, toDouble, this]
      rfl
    show Except.map _ (setDouble { neg := neg, special := none, l := d, r := some f, e := some (eneg, x) }) = _
    rw [this]
    rfl
  | @singleExp neg eneg d f x m c hd hf hl hx hxl hm hc hb =>
    have hs : sign neg (d ++ '.' :: (f ++ m :: (sign eneg (x ++ [c])))) ++ rest =
        sign neg (d ++ (pointText (some f) ++ (expText (some (m, eneg, x)) ++ (c :: rest)))) := by
      cases neg <;> cases eneg <;> simp [sign, pointText, expText]
    have n1 : NoHead Py.isDigit (c :: rest) := noHead_cons (by rcases hc with rfl | rfl <;> decide)
    have n2 : NoHead (· == '.') (c :: rest) := noHead_cons (by rcases hc with rfl | rfl <;> decide)
    have n3 : NoHead (fun c => c == 'e' || c == 'E') (c :: rest) := noHead_cons (by rcases hc with rfl | rfl <;> decide)
    have ho : ExpOk (some (m, eneg, x)) := by
      intro m' n' x' h
      injection h with h; injection h with h1 h; injection h with h2 h3
      subst h1; subst h3; exact ⟨hm, hx⟩
    rw [hs, number_read hd (by simp [hf]) ho n1 n2 n3]
    simp only [Option.map_some]
    rw [if_neg (by rcases hc with rfl | rfl <;> decide), if_pos hc]
    have hbad : badExponent 2 { neg := neg, special := none, l := d, r := some f, e := some (eneg, x) } = false := by
      have hx0 : (x == []) = false := by simpa using hx.1
      have hd0 : (d == []) = false := by simpa using hd.1
      simp [badExponent, hx0, hd0]; omega
    have : setSingle { neg := neg, special := none, l := d, r := some f, e := some (eneg, x) } =
        .ok (.single (.fin neg (Py.digitsVal 10 (d ++ f)) (signed eneg (Py.digitsVal 10 x) - f.length))) := by
      unfold setSingle
      dsimp only
      rw [if_neg (by simp), if_neg (by simp [hbad]; omega)]
      have h1 := exceeds_below hb
      have h2 := exceeds_below (below_mono hb singleMax)
      simp only [signed] at h1 h2 ⊢
      simp only [Numeric.flt, Option.getD_some, toDouble, h2, singleRange, Bool.false_eq_true, if_false, h1]
    show Except.map _ (setSingle { neg := neg, special := none, l := d, r := some f, e := some (eneg, x) }) = _
    rw [this]
    rfl
  | @negInfDouble t c h hc =>
    rw [List.cons_append, List.append_assoc, List.singleton_append, negInf_read h, if_pos hc]
  | @negInfSingle t c h hc =>
    rw [List.cons_append, List.append_assoc, List.singleton_append, negInf_read h,
      if_neg (by rcases hc with rfl | rfl <;> decide), if_pos hc]
  | @string s =>
    have hn : NoHead (· == '\'') rest := hr.noHead (by decide) (by decide) (by decide) (by decide) (by decide)
    unfold uriLiteral simpleIdentifier quote
    rw [List.cons_append, identLoop, if_neg (by rw [start_ascii_false (by decide) (by decide)]; decide)]
    dsimp only
    rw [List.append_assoc, List.singleton_append]
    show Except.map _ (stringLoop _) = _
    rw [stringLoop_read hn]
    rfl
  | @binary p b hp hb =>
    rw [List.append_assoc, List.cons_append, List.append_assoc, List.singleton_append]
    have hq := quoted_read (p := parseBinary) (parseBinary_read hb (rest := '\'' :: rest) (noHead_cons (by decide)))
    have hk : uriLiteral T (p ++ '\'' :: (b.flatMap (fun x => [x.1, x.2]) ++ '\'' :: rest)) =
        namedLiteral T (p ++ '\'' :: (b.flatMap (fun x => [x.1, x.2]) ++ '\'' :: rest)) p
          ('\'' :: (b.flatMap (fun x => [x.1, x.2]) ++ '\'' :: rest)) ∧ keyword p = .binary := by
      rcases hp with rfl | hp
      · refine ⟨?_, keyword_X⟩
        unfold uriLiteral
        rw [ident_read (letters_ident (by simp) (by decide)) q0.1 q0.2]
      · exact word (by decide) hp q0
    rw [hk.1, namedLiteral, hk.2]
    exact hq
  | @guid p a b c d e hp ha ha' hb hb' hc hc' hd hd' he he' =>
    simp only [List.append_assoc, List.cons_append, List.nil_append]
    have hk := word (kw := .guid) (tail := '\'' :: (a ++ '-' :: (b ++ '-' :: (c ++ '-' :: (d ++ '-' :: (e ++ '\'' :: rest))))))
      (by decide) hp q0
    rw [hk.1, namedLiteral, hk.2]
    have := quoted_read (p := parseGuid) (parseGuid_read ha ha' hb hb' hc hc' hd hd' he he' (rest := '\'' :: rest))
    simpa only [List.append_assoc] using this
  | @dateTime p y mo d clock f h m s hp h1 h2 h3 h4 h5 h6 h7 h8 h9 h10 h11 h12 h13 =>
    simp only [List.append_assoc, List.cons_append, List.nil_append]
    have hk := word (kw := .datetime) (tail := '\'' :: (y ++ '-' :: (mo ++ '-' :: (d ++ 'T' :: (clock ++ '\'' :: rest)))))
      (by decide) hp q0
    rw [hk.1, namedLiteral, hk.2]
    exact quoted_read (parseDateTime_read h1 h2 h3 h5 h6 h7 h8 h9 h10 h11 h12 h13 (rest := '\'' :: rest)
      (noHead_cons (by decide)) (noHead_cons (by decide)) (noHead_cons (by decide)))
  | @time p clock f h m s hp h7 h13 =>
    simp only [List.append_assoc, List.cons_append, List.nil_append]
    have hk := word (kw := .time) (tail := '\'' :: (clock ++ '\'' :: rest)) (by decide) hp q0
    rw [hk.1, namedLiteral, hk.2]
    exact quoted_read (parseTime_read h7 h13 (rest := '\'' :: rest)
      (noHead_cons (by decide)) (noHead_cons (by decide)) (noHead_cons (by decide)))
  | @offset p t hp h1 h2 =>
    simp only [List.append_assoc, List.cons_append, List.nil_append]
    have hk := word (kw := .datetimeoffset) (tail := '\'' :: (t ++ '\'' :: rest)) (by decide) hp q0
    rw [hk.1, namedLiteral, hk.2]
    exact parseOffset_read h1 h2

end Verif.OData
