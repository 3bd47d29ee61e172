import Verif.Model.HttpDate
import Verif.Spec.HttpDate
import Verif.Props.HttpTags
import Verif.Props.WeekTime

/-!
# Dates in HTTP headers

C137: dates are written and read back, in all three formats.
-/

set_option linter.unusedVariables false
set_option linter.unusedSimpArgs false

namespace Verif.Props

open Verif Verif.Http Verif.Cal Verif.Spec Verif.Spec.HttpDate

theorem bind_runs {α β : Type} {m : P α} {f : α → P β} {ws r : Words} {a : α} (h : m ws = .ok (a, r)) :
    (m >>= f) ws = f a r := by
  rw [bind_run, h]
  rfl

theorem digits_token {s : Str} (h : isDigits s = true) : Token s := by
  unfold isDigits at h
  rw [Bool.and_eq_true] at h
  refine ⟨?_, ?_⟩
  · intro e; subst e; simp at h
  · exact List.all_eq_true.mpr fun c hc => digit_tok (List.all_eq_true.mp h.2 c hc)

theorem requireInteger_digits {s : Str} (h : isDigits s = true) (ws : Words) :
    requireInteger (some s :: ws) = .ok (Py.digitsVal 10 s, ws) := by
  unfold requireInteger
  have : isInteger (some s :: ws) = true := by simpa [isInteger, cWord] using h
  rw [this]
  rfl

theorem parseSP_sep {c : Char} (hc : c ≠ ' ') (ws : Words) : parseSP (some [c] :: ws) = .ok ((), some [c] :: ws) :=
  parseSP_other (by simpa [cWord] using hc)

/-- The words of the clock and what follows it. -/
def clockWords (hh mm ss : Str) (ws : Words) : Words :=
  some hh :: some [':'] :: some mm :: some [':'] :: some ss :: ws

theorem words_clock {hh mm ss rest : Str} {ws : Words} (h1 : isDigits hh = true) (h2 : isDigits mm = true)
    (h3 : isDigits ss = true) (hr : Stops rest) (hw : words true rest = some (.ok ws)) :
    words true (hh ++ ':' :: (mm ++ ':' :: (ss ++ rest))) = some (.ok (clockWords hh mm ss ws)) := by
  have a1 := words_token (digits_token h3) hr hw
  have a2 := words_sep (c := ':') (by decide) (by decide) (by decide) (by decide) a1
  have a3 := words_token_then (digits_token h2) (by decide) a2
  have a4 := words_sep (c := ':') (by decide) (by decide) (by decide) (by decide) a3
  exact words_token_then (digits_token h1) (by decide) a4

theorem words_sp_token {t rest : Str} {ws : Words} (ht : Token t) (h : words true (t ++ rest) = some (.ok ws)) :
    words true (' ' :: (t ++ rest)) = some (.ok ws) := words_space_token ht h

/-- The name of the zone. -/
def gmt : Str := ['G', 'M', 'T']

theorem words_gmt : words true (' ' :: gmt) = some (.ok [some gmt]) := by decide +kernel

theorem requireYear_gmt (c : Option Nat) (y : Nat) :
    requireYear (some (c, y)) [some gmt] = .ok ((c.getD (if y < 90 then 20 else 19), y), []) := by
  unfold requireYear
  dsimp only
  rw [bind_runs (show requireToken [some gmt] = .ok (gmt, []) from by decide)]
  rw [if_neg (show ¬ (gmt.map upperChar ≠ "GMT".toList) from by decide)]
  rfl

/-- What is read after the day of the week. -/
theorem requireFullDate_run {w : Str} {k : Nat} {ws ws2 ws3 : Words} {day month : Nat} {year : Option (Option Nat × Nat)}
    {hh mm ss : Str} {century y : Nat} (hw : Token w) (hk : wkdayIndex (Py.lower w) = some k)
    (hsp : cWord ws ≠ some [' '])
    (hd : requireDayMonth ws = .ok ((day, month, year), clockWords hh mm ss ws2))
    (h1 : isDigits hh = true) (h2 : isDigits mm = true) (h3 : isDigits ss = true)
    (hsp2 : cWord ws2 ≠ some [' ']) (hy : requireYear year ws2 = .ok ((century, y), ws3)) :
    requireFullDate (some w :: ws) =
      (makeFullDate k day month century y (Py.digitsVal 10 hh) (Py.digitsVal 10 mm) (Py.digitsVal 10 ss)).map
        fun p => (p, ws3) := by
  unfold requireFullDate clockWords at *
  rw [bind_runs (parseSP_token hw ws), bind_runs (requireToken_token hw ws), hk, bind_runs (show requireName (some k) ws = .ok (k, ws) from rfl),
    bind_runs (parseSP_other hsp), bind_runs hd]
  dsimp only
  rw [bind_runs (parseSP_token (digits_token h1) _), bind_runs (requireInteger_digits h1 _), bind_runs (requireSeparator_self _ _),
    bind_runs (requireInteger_digits h2 _), bind_runs (requireSeparator_self _ _), bind_runs (requireInteger_digits h3 _),
    bind_runs (parseSP_other hsp2), bind_runs hy]

theorem fullDateFromString_run {s : Str} {ws : Words} {r : Except Fault TimePoint} (hw : words true s = some (.ok ws))
    (h : requireFullDate ws = r.map fun p => (p, [])) : fullDateFromString s = some r := by
  unfold fullDateFromString fromString
  rw [hw]
  show some (Except.map _ ((requireFullDate >>= _) ws)) = _
  rw [bind_run, h]
  cases r with
  | error e => rfl
  | ok p => rfl

theorem isToken_digits {s : Str} (h : isDigits s = true) (ws : Words) :
    (isToken (some s :: ws) && isInteger (some s :: ws)) = true := by
  rw [isToken_token (digits_token h)]
  simpa [isInteger, cWord] using h

/-- The preferred format, for any names and numbers. -/
theorem read_rfc1123 {w dd mo yy hh mm ss : Str} {k mi : Nat} (hw : Token w) (hk : wkdayIndex (Py.lower w) = some k)
    (hd : isDigits dd = true) (hm : Token mo) (hmi : monthIndex (Py.lower mo) = some mi) (hy : isDigits yy = true)
    (h1 : isDigits hh = true) (h2 : isDigits mm = true) (h3 : isDigits ss = true) :
    fullDateFromString (w ++ ',' :: ' ' :: (dd ++ ' ' :: (mo ++ ' ' :: (yy ++ ' ' :: (hh ++ ':' :: (mm ++ ':' ::
      (ss ++ ' ' :: gmt))))))) =
    some (makeFullDate k (Py.digitsVal 10 dd) mi (Py.digitsVal 10 yy / 100) (Py.digitsVal 10 yy % 100)
      (Py.digitsVal 10 hh) (Py.digitsVal 10 mm) (Py.digitsVal 10 ss)) := by
  have stop : ∀ (u : Str), Stops (' ' :: u) := fun u c v e => by injection e with e _; subst e; decide
  have b1 := words_clock h1 h2 h3 (stop _) words_gmt
  have b2 := words_token_then (digits_token hy) (c := ' ') (by decide) (words_sp_token (digits_token h1) b1)
  have b3 := words_token_then hm (c := ' ') (by decide) (words_sp_token (digits_token hy) b2)
  have b4 := words_token_then (digits_token hd) (c := ' ') (by decide) (words_sp_token hm b3)
  have b5 := words_sep (c := ',') (by decide) (by decide) (by decide) (by decide) (words_sp_token (digits_token hd) b4)
  have b6 := words_token_then hw (by decide) b5
  refine fullDateFromString_run b6 (requireFullDate_run (ws2 := [some gmt]) (year := some (some (Py.digitsVal 10 yy / 100), Py.digitsVal 10 yy % 100)) hw hk (by simp [cWord]) ?_ h1 h2 h3 (by decide)
    (requireYear_gmt _ _))
  · unfold requireDayMonth
    rw [bind_runs (parseSeparator_self _ _), if_pos rfl, bind_runs (parseSP_token (digits_token hd) _), bind_runs (get_run _),
      if_pos (isToken_digits hd _), bind_runs (requireInteger_digits hd _), bind_runs (parseSP_token hm _),
      bind_runs (requireToken_token hm _), hmi, bind_runs (show requireName (some mi) _ = .ok (mi, _) from rfl),
      bind_runs (parseSP_token (digits_token hy) _), bind_runs (requireInteger_digits hy _)]
    rfl

/-- The format of RFC 850, for any names and numbers. -/
theorem read_rfc850 {w dd mo yy hh mm ss : Str} {k mi : Nat} (hw : Token w) (hk : wkdayIndex (Py.lower w) = some k)
    (hd : isDigits dd = true) (hm : Token mo) (hm2 : '-' ∉ mo) (hmi : monthIndex (Py.lower mo) = some mi) (hy : isDigits yy = true)
    (h1 : isDigits hh = true) (h2 : isDigits mm = true) (h3 : isDigits ss = true) :
    fullDateFromString (w ++ ',' :: ' ' :: ((dd ++ '-' :: (mo ++ '-' :: yy)) ++ ' ' :: (hh ++ ':' :: (mm ++ ':' ::
      (ss ++ ' ' :: gmt))))) =
    some (makeFullDate k (Py.digitsVal 10 dd) mi (if Py.digitsVal 10 yy < 90 then 20 else 19) (Py.digitsVal 10 yy)
      (Py.digitsVal 10 hh) (Py.digitsVal 10 mm) (Py.digitsVal 10 ss)) := by
  have stop : ∀ (u : Str), Stops (' ' :: u) := fun u c v e => by injection e with e _; subst e; decide
  have tok : Token (dd ++ '-' :: (mo ++ '-' :: yy)) := by
    refine token_append (digits_token hd) ?_
    rw [List.all_cons, List.all_append, List.all_cons, hm.2, (digits_token hy).2]
    decide
  have nodash : ∀ {s : Str}, isDigits s = true → '-' ∉ s := by
    intro s h hc
    unfold isDigits at h
    rw [Bool.and_eq_true] at h
    have := List.all_eq_true.mp h.2 '-' hc
    revert this
    decide
  have hsplit : Py.split '-' (dd ++ '-' :: (mo ++ '-' :: yy)) = [dd, mo, yy] := by
    rw [CP.split_append '-' dd _, CP.split_append '-' mo _, CP.split_of_not_mem '-' yy (nodash hy), CP.split_of_not_mem '-' dd (nodash hd), CP.split_of_not_mem '-' mo hm2]
    rfl
  have b1 := words_clock h1 h2 h3 (stop _) words_gmt
  have b2 := words_token_then tok (c := ' ') (by decide) (words_sp_token (digits_token h1) b1)
  have b5 := words_sep (c := ',') (by decide) (by decide) (by decide) (by decide) (words_sp_token tok b2)
  have b6 := words_token_then hw (by decide) b5
  refine fullDateFromString_run b6 (requireFullDate_run (ws2 := [some gmt]) (year := some (none, Py.digitsVal 10 yy)) hw hk (by simp [cWord]) ?_ h1 h2 h3 (by decide)
    (requireYear_gmt _ _))
  unfold requireDayMonth
  have hni : ∀ ws, ¬ (isToken (some (dd ++ '-' :: (mo ++ '-' :: yy)) :: ws) &&
      isInteger (some (dd ++ '-' :: (mo ++ '-' :: yy)) :: ws)) = true := by
    intro ws h
    rw [Bool.and_eq_true] at h
    have h2 : isDigits (dd ++ '-' :: (mo ++ '-' :: yy)) = true := h.2
    exact nodash h2 (by simp)
  rw [bind_runs (parseSeparator_self _ _), if_pos rfl, bind_runs (parseSP_token tok _), bind_runs (get_run _),
    if_neg (hni _), bind_runs (requireToken_token tok _), hsplit]
  dsimp only
  rw [hd, hy, if_pos (by decide), hmi, bind_runs (show requireName (some mi) _ = .ok (mi, _) from rfl)]
  rfl

theorem words_spaces_token {t rest : Str} {ws : Words} (ht : Token t) (h : words true (t ++ rest) = some (.ok ws)) :
    words true (' ' :: ' ' :: (t ++ rest)) = some (.ok ws) := by
  obtain ⟨c, u, rfl, hc, _⟩ := token_head ht
  have hn := tok_not_sp hc
  have hl := lws_none (t := u ++ rest) hn.1 hn.2.2.2
  have hs : skipLws (' ' :: ' ' :: c :: (u ++ rest)) = (true, c :: (u ++ rest)) := by
    have : lws (' ' :: ' ' :: c :: (u ++ rest)) = some ([' ', ' '], c :: (u ++ rest)) := by
      rw [lws_sp (by decide)]
      rw [List.takeWhile_cons, List.dropWhile_cons]
      simp [hn.1, show isSp ' ' = true from rfl, List.takeWhile_cons, List.dropWhile_cons]
    rw [skipLws_some this, skipLws_none hl]
  have hs1 : skipLws (' ' :: c :: (u ++ rest)) = (true, c :: (u ++ rest)) := by
    have : lws (' ' :: c :: (u ++ rest)) = some ([' '], c :: (u ++ rest)) := by
      rw [lws_sp (by decide)]
      simp [hn.1]
    rw [skipLws_some this, skipLws_none hl]
  have h2 := words_sp_token ht h
  show words true (' ' :: ' ' :: c :: (u ++ rest)) = _
  change words true (' ' :: c :: (u ++ rest)) = _ at h2
  unfold words at h2 ⊢
  have h3 := wordLoop_rounds true (' ' :: c :: (u ++ rest)) ((' ' :: ' ' :: c :: (u ++ rest)).length + 1) (by simp)
  rw [h2] at h3
  replace h2 := h3
  rw [wordLoop_cons, hs1] at h2
  rw [wordLoop_cons, hs]
  exact h2

/-- The format of `asctime`, for any names and numbers, with one or two spaces before the day. -/
theorem read_asctime {w dd mo yy hh mm ss : Str} {k mi : Nat} (two : Bool) (hw : Token w) (hk : wkdayIndex (Py.lower w) = some k)
    (hd : isDigits dd = true) (hm : Token mo) (hmi : monthIndex (Py.lower mo) = some mi) (hy : isDigits yy = true)
    (h1 : isDigits hh = true) (h2 : isDigits mm = true) (h3 : isDigits ss = true) :
    fullDateFromString (w ++ ' ' :: (mo ++ ' ' :: ((if two then [' '] else []) ++ (dd ++ ' ' :: (hh ++ ':' :: (mm ++ ':' ::
      (ss ++ ' ' :: yy))))))) =
    some (makeFullDate k (Py.digitsVal 10 dd) mi (Py.digitsVal 10 yy / 100) (Py.digitsVal 10 yy % 100)
      (Py.digitsVal 10 hh) (Py.digitsVal 10 mm) (Py.digitsVal 10 ss)) := by
  have stop : ∀ (u : Str), Stops (' ' :: u) := fun u c v e => by injection e with e _; subst e; decide
  have b0 : words true (' ' :: yy) = some (.ok [some yy]) := by
    have a1 := words_token (ign := true) (digits_token hy) (rest := []) (fun c u e => by cases e) (words_nil true)
    have a2 := words_sp_token (digits_token hy) a1
    rw [List.append_nil] at a2
    exact a2
  have b1 := words_clock h1 h2 h3 (stop _) b0
  have b2 := words_token_then (digits_token hd) (c := ' ') (by decide) (words_sp_token (digits_token h1) b1)
  have b3 : words true (' ' :: ((if two then [' '] else []) ++ (dd ++ ' ' :: (hh ++ ':' :: (mm ++ ':' :: (ss ++ ' ' :: yy)))))) =
      some (.ok (some dd :: clockWords hh mm ss [some yy])) := by
    cases two with
    | true => exact words_spaces_token (t := dd) (digits_token hd) b2
    | false => exact words_sp_token (t := dd) (digits_token hd) b2
  have b4 := words_token_then hm (c := ' ') (by decide) b3
  have b6 := words_token_then hw (c := ' ') (by decide) (words_sp_token hm b4)
  refine fullDateFromString_run b6 (requireFullDate_run (ws2 := [some yy]) (ws3 := []) (year := none) hw hk (by simpa [cWord] using token_ne_sep hm (by decide)) ?_ h1 h2 h3
    (by simpa [cWord] using token_ne_sep (digits_token hy) (by decide)) ?_)
  · unfold requireDayMonth
    have hc : parseSeparator ',' (some mo :: some dd :: clockWords hh mm ss [some yy]) =
        .ok (false, some mo :: some dd :: clockWords hh mm ss [some yy]) :=
      parseSeparator_other (by simpa [cWord] using token_ne_sep hm (by decide))
    rw [bind_runs hc, if_neg (by decide), bind_runs (requireToken_token hm _), hmi, bind_runs (show requireName (some mi) _ = .ok (mi, _) from rfl),
      bind_runs (parseSP_token (digits_token hd) _), bind_runs (requireInteger_digits hd _)]
    rfl
  · unfold requireYear
    dsimp only
    rw [bind_runs (requireInteger_digits hy _)]
    rfl

/-! ## Names and numbers -/

theorem shortDay_ok {n : Int} (h1 : 1 ≤ n) (h2 : n ≤ 7) :
    Token (shortDay n) ∧ wkdayIndex (Py.lower (shortDay n)) = some (n - 1).toNat ∧ wkday[(n - 1).toNat]! = shortDay n := by
  have : n = 1 ∨ n = 2 ∨ n = 3 ∨ n = 4 ∨ n = 5 ∨ n = 6 ∨ n = 7 := by omega
  rcases this with h | h | h | h | h | h | h <;> subst h <;> exact ⟨⟨by decide, by decide⟩, by decide, by decide⟩

theorem longDay_ok {n : Int} (h1 : 1 ≤ n) (h2 : n ≤ 7) :
    Token (longDay n) ∧ wkdayIndex (Py.lower (longDay n)) = some (n - 1).toNat := by
  have : n = 1 ∨ n = 2 ∨ n = 3 ∨ n = 4 ∨ n = 5 ∨ n = 6 ∨ n = 7 := by omega
  rcases this with h | h | h | h | h | h | h <;> subst h <;> exact ⟨⟨by decide, by decide⟩, by decide⟩

theorem monthName_ok {n : Int} (h1 : 1 ≤ n) (h2 : n ≤ 12) :
    Token (monthName n) ∧ '-' ∉ monthName n ∧ monthIndex (Py.lower (monthName n)) = some (n - 1).toNat ∧
      monthNames[(n - 1).toNat]! = monthName n := by
  have : n = 1 ∨ n = 2 ∨ n = 3 ∨ n = 4 ∨ n = 5 ∨ n = 6 ∨ n = 7 ∨ n = 8 ∨ n = 9 ∨ n = 10 ∨ n = 11 ∨ n = 12 := by omega
  rcases this with h | h | h | h | h | h | h | h | h | h | h | h <;> subst h <;>
    exact ⟨⟨by decide, by decide⟩, by decide, by decide, by decide⟩

theorem digit_eq {n : Int} (h : 0 ≤ n) : digit n = Py.digitChar n.toNat := by
  unfold digit Py.digitChar
  rw [show (n % 10).toNat = n.toNat % 10 by omega]

theorem digitChar_mod (n : Nat) : Py.digitChar (n % 10) = Py.digitChar n := by
  unfold Py.digitChar
  rw [Nat.mod_mod]

theorem digitChar_digit (n : Nat) : Py.isDigit (Py.digitChar n) = true := by
  have h : ∀ k, k < 10 → Py.isDigit (Py.digitChar k) = true := by decide
  rw [← digitChar_mod]
  exact h _ (by omega)

theorem digitChar_hex (n : Nat) : Py.hexVal (Py.digitChar n) = n % 10 := by
  have h : ∀ k, k < 10 → Py.hexVal (Py.digitChar k) = k := by decide
  rw [← digitChar_mod]
  exact h _ (by omega)

theorem one_ok {n : Int} (h : 0 ≤ n) (h2 : n < 10) : isDigits [digit n] = true ∧ Py.digitsVal 10 [digit n] = n.toNat := by
  rw [digit_eq h]
  refine ⟨by simp [isDigits, digitChar_digit], ?_⟩
  simp only [Py.digitsVal, List.foldl_cons, List.foldl_nil, digitChar_hex]
  omega

theorem two_ok {n : Int} (h : 0 ≤ n) (h2 : n < 100) : isDigits (two n) = true ∧ Py.digitsVal 10 (two n) = n.toNat := by
  unfold two
  rw [digit_eq h, digit_eq (by omega)]
  refine ⟨by simp [isDigits, digitChar_digit], ?_⟩
  simp only [Py.digitsVal, List.foldl_cons, List.foldl_nil, digitChar_hex]
  omega

theorem four_ok {n : Int} (h : 0 ≤ n) (h2 : n < 10000) : isDigits (four n) = true ∧ Py.digitsVal 10 (four n) = n.toNat := by
  unfold four two
  rw [digit_eq h, digit_eq (by omega), digit_eq (by omega), digit_eq (by omega)]
  refine ⟨by simp [isDigits, digitChar_digit], ?_⟩
  simp only [Py.digitsVal, List.cons_append, List.nil_append, List.foldl_cons, List.foldl_nil, digitChar_hex]
  omega

theorem strNat_small {n : Nat} (h : n < 10) : Py.strNat n = [Py.digitChar n] := by
  rw [Py.strNat.eq_def, if_pos h]

theorem strNat_large {n : Nat} (h : 10 ≤ n) : Py.strNat n = Py.strNat (n / 10) ++ [Py.digitChar n] := by
  rw [Py.strNat.eq_def, if_neg (by omega), digitChar_mod]

theorem digitChar_zero {n : Nat} (h : n % 10 = 0) : Py.digitChar n = '0' := by
  unfold Py.digitChar
  rw [h]

theorem padded_two {n : Int} (h : 0 ≤ n) (h2 : n < 100) : padded 2 n.toNat = two n := by
  unfold padded two
  rw [digit_eq h, digit_eq (by omega), show (n / 10).toNat = n.toNat / 10 by omega]
  have hk : n.toNat < 100 := by omega
  generalize n.toNat = k at *
  rcases Nat.lt_or_ge k 10 with h3 | h3
  · rw [strNat_small h3, digitChar_zero (n := k / 10) (by omega)]; rfl
  · rw [strNat_large h3, strNat_small (by omega)]; rfl

theorem padded_four {n : Int} (h : 0 ≤ n) (h2 : n < 10000) : padded 4 n.toNat = four n := by
  unfold padded four two
  rw [digit_eq h, digit_eq (by omega), digit_eq (by omega), digit_eq (by omega),
    show (n / 100 / 10).toNat = n.toNat / 10 / 10 / 10 by omega, show (n / 100).toNat = n.toNat / 10 / 10 by omega,
    show (n / 10).toNat = n.toNat / 10 by omega]
  have hk : n.toNat < 10000 := by omega
  generalize n.toNat = k at *
  rcases Nat.lt_or_ge k 10 with h3 | h3
  · rw [strNat_small h3, digitChar_zero (n := k / 10) (by omega), digitChar_zero (n := k / 10 / 10) (by omega),
      digitChar_zero (n := k / 10 / 10 / 10) (by omega)]; rfl
  rw [strNat_large h3]
  rcases Nat.lt_or_ge (k / 10) 10 with h4 | h4
  · rw [strNat_small h4, digitChar_zero (n := k / 10 / 10) (by omega),
      digitChar_zero (n := k / 10 / 10 / 10) (by omega)]; rfl
  rw [strNat_large h4]
  rcases Nat.lt_or_ge (k / 10 / 10) 10 with h5 | h5
  · rw [strNat_small h5, digitChar_zero (n := k / 10 / 10 / 10) (by omega)]; rfl
  rw [strNat_large h5, strNat_small (by omega)]; rfl

theorem checkTime_legal {t : Time} (h : LegalTime t) (hz : t.zone = some (0, 0)) : checkTime t = .ok t := by
  obtain ⟨h1, h2, h3, h4, h5, h6, h7⟩ := h
  unfold checkTime
  rw [hz]
  show (if _ then _ else _) = _
  rw [if_neg (by omega), if_neg (by omega), if_neg (by omega), if_neg (by omega)]

theorem weekday_range {d : Date} (h : ValidDate d) : 1 ≤ weekday d ∧ weekday d ≤ 7 ∧ (getWeekday d).2.2 = weekday d := by
  have h1 := (week_date_correct d h).1
  have h2 := dayOfWeek_eq d h.2.2.2.2.2.1 h.2.2.2.2.2.2.1
  unfold weekday
  refine ⟨?_, ?_, h1⟩ <;> omega

theorem make_valid {p : TimePoint} (hd : ValidDate p.date) (ht : LegalTime p.time) {k day month century year hour minute second : Nat}
    (hk : (k : Int) = weekday p.date - 1) (h1 : (day : Int) = p.date.day) (h2 : (month : Int) = p.date.month - 1)
    (h3 : (century : Int) = p.date.century) (h4 : (year : Int) = p.date.year) (h5 : (hour : Int) = p.time.hour)
    (h6 : (minute : Int) = p.time.minute) (h7 : (second : Int) = p.time.second) :
    makeFullDate k day month century year hour minute second = .ok (inGmt p) := by
  unfold makeFullDate
  rw [h1, h2, h3, h4, h5, h6, h7, hk]
  have hd2 : ({ century := p.date.century, year := p.date.year, month := p.date.month - 1 + 1, day := p.date.day } : Date) = p.date := by
    rw [show p.date.month - 1 + 1 = p.date.month by omega]
  rw [hd2]
  have hm : mkTimePoint p.date { hour := p.time.hour, minute := p.time.minute, second := p.time.second, zone := some (0, 0) } =
      .ok (inGmt p) := by
    unfold mkTimePoint
    rw [pCheck_valid hd]
    show (checkTime _ >>= _) = _
    rw [checkTime_legal (t := { hour := p.time.hour, minute := p.time.minute, second := p.time.second, zone := some (0, 0) }) ht rfl]
    rfl
  rw [hm]
  dsimp only
  rw [if_neg]
  have := (weekday_range hd).2.2
  show ¬ (getWeekday p.date).2.2 ≠ _
  omega

theorem daysIn_le (y m : Int) : daysIn y m ≤ 31 := by
  unfold daysIn
  split
  · split <;> decide
  · split <;> decide

/-! ## C137 -/

/-- **C137.**  A date with a time of day is written in the preferred format, with the right day of the week; and this and
the format of `asctime` are read as the same date and time of day, in GMT. -/
theorem date_exact (p : TimePoint) (hd : ValidDate p.date) (ht : LegalTime p.time) :
    formatFullDate p = rfc1123 p ∧
    fullDateFromString (rfc1123 p) = some (.ok (inGmt p)) ∧
    fullDateFromString (asctime p) = some (.ok (inGmt p)) := by
  obtain ⟨w1, w2, w3⟩ := weekday_range hd
  have hd' := hd
  obtain ⟨d1, d2, d3, d4, d5, d6, d7, d8, d9⟩ := hd'
  obtain ⟨t1, t2, t3, t4, t5, t6, t7⟩ := id ht
  have d10 := daysIn_le (yearOf p.date) p.date.month
  have s1 := shortDay_ok w1 w2
  have s2 := monthName_ok d6 d7
  have hy : yearOf p.date = p.date.century * 100 + p.date.year := rfl
  have f1 := four_ok (n := yearOf p.date) (by omega) (by omega)
  have e1 := two_ok (n := p.date.day) (by omega) (by omega)
  have e2 := two_ok (n := p.time.hour) (by omega) (by omega)
  have e3 := two_ok (n := p.time.minute) (by omega) (by omega)
  have e4 := two_ok (n := p.time.second) (by omega) (by omega)
  refine ⟨?_, ?_, ?_⟩
  · unfold formatFullDate rfc1123 clock
    dsimp only
    rw [w3, s1.2.2, s2.2.2.2, padded_two (by omega) (by omega), padded_two (by omega) (by omega),
      padded_two (by omega) (by omega), padded_two (by omega) (by omega), ← hy, padded_four (by omega) (by omega)]
    simp
  · have := read_rfc1123 s1.1 s1.2.1 e1.1 s2.1 s2.2.2.1 f1.1 e2.1 e3.1 e4.1
    have ht : rfc1123 p = shortDay (weekday p.date) ++ ',' :: ' ' :: (two p.date.day ++ ' ' :: (monthName p.date.month ++ ' ' ::
        (four (yearOf p.date) ++ ' ' :: (two p.time.hour ++ ':' :: (two p.time.minute ++ ':' ::
          (two p.time.second ++ ' ' :: gmt)))))) := by
      unfold rfc1123 clock gmt
      simp
    rw [ht, this, e1.2, f1.2, e2.2, e3.2, e4.2, make_valid hd (by assumption)] <;> omega
  · have ht : ∀ (b : Bool) dd, (if b then [' '] else []) ++ dd = (if p.date.day < 10 then [' ', digit p.date.day] else two p.date.day) →
        asctime p = shortDay (weekday p.date) ++ ' ' :: (monthName p.date.month ++ ' ' :: ((if b then [' '] else []) ++
          (dd ++ ' ' :: (two p.time.hour ++ ':' :: (two p.time.minute ++ ':' :: (two p.time.second ++ ' ' ::
            four (yearOf p.date))))))) := by
      intro b dd h
      unfold asctime clock
      rw [← h]
      simp
    by_cases hten : p.date.day < 10
    · have o1 := one_ok (n := p.date.day) (by omega) hten
      have := read_asctime true s1.1 s1.2.1 o1.1 s2.1 s2.2.2.1 f1.1 e2.1 e3.1 e4.1
      rw [ht true [digit p.date.day] (by rw [if_pos hten]; rfl), this, o1.2, f1.2, e2.2, e3.2, e4.2,
        make_valid hd (by assumption)] <;> omega
    · have := read_asctime false s1.1 s1.2.1 e1.1 s2.1 s2.2.2.1 f1.1 e2.1 e3.1 e4.1
      rw [ht false (two p.date.day) (by rw [if_neg hten]; rfl), this, e1.2, f1.2, e2.2, e3.2, e4.2,
        make_valid hd (by assumption)] <;> omega

/-- **C137 (partial).**  The format with two digits for the year is read as the same date and time of day for the years
1990 to 2089.  Missing: the other years, see `two_digit_refuted`. -/
theorem two_digit_partial (p : TimePoint) (hd : ValidDate p.date) (ht : LegalTime p.time) (h1 : 1990 ≤ yearOf p.date)
    (h2 : yearOf p.date ≤ 2089) : fullDateFromString (rfc850 p) = some (.ok (inGmt p)) := by
  obtain ⟨w1, w2, w3⟩ := weekday_range hd
  have hd' := hd
  obtain ⟨d1, d2, d3, d4, d5, d6, d7, d8, d9⟩ := hd'
  obtain ⟨t1, t2, t3, t4, t5, t6, t7⟩ := id ht
  have d10 := daysIn_le (yearOf p.date) p.date.month
  have s1 := longDay_ok w1 w2
  have s2 := monthName_ok d6 d7
  have hy : yearOf p.date = p.date.century * 100 + p.date.year := rfl
  have f1 := two_ok (n := p.date.year) (by omega) (by omega)
  have e1 := two_ok (n := p.date.day) (by omega) (by omega)
  have e2 := two_ok (n := p.time.hour) (by omega) (by omega)
  have e3 := two_ok (n := p.time.minute) (by omega) (by omega)
  have e4 := two_ok (n := p.time.second) (by omega) (by omega)
  have hr := read_rfc850 s1.1 s1.2 e1.1 s2.1 s2.2.1 s2.2.2.1 f1.1 e2.1 e3.1 e4.1
  have ht : rfc850 p = longDay (weekday p.date) ++ ',' :: ' ' :: ((two p.date.day ++ '-' :: (monthName p.date.month ++ '-' ::
      two p.date.year)) ++ ' ' :: (two p.time.hour ++ ':' :: (two p.time.minute ++ ':' ::
        (two p.time.second ++ ' ' :: gmt)))) := by
    unfold rfc850 clock gmt
    simp
  have hc : ((if p.date.year.toNat < 90 then 20 else 19 : Nat) : Int) = p.date.century := by
    split <;> omega
  rw [ht, hr, e1.2, f1.2, e2.2, e3.2, e4.2, make_valid hd (by assumption)] <;> omega

/-- The parts of a run that ends well. -/
theorem bind_inv {α β : Type} {m : P α} {f : α → P β} {ws r : Words} {b : β} (h : (m >>= f) ws = .ok (b, r)) :
    ∃ a ws', m ws = .ok (a, ws') ∧ f a ws' = .ok (b, r) := by
  rw [bind_run] at h
  cases hm : m ws with
  | error e => rw [hm] at h; cases h
  | ok x => rw [hm] at h; exact ⟨x.1, x.2, rfl, h⟩

/-- **C137.**  Whatever is read, from any text, is a date of the calendar and a time of day in GMT. -/
theorem date_sound (s : Str) (p : TimePoint) (h : fullDateFromString s = some (.ok p)) :
    ValidDate p.date ∧ LegalTime p.time ∧ p.time.zone = some (0, 0) := by
  unfold fullDateFromString fromString at h
  cases hw : words true s with
  | none => rw [hw] at h; cases h
  | some r =>
    cases r with
    | error e => rw [hw] at h; cases h
    | ok ws =>
      rw [hw] at h
      injection h with h
      obtain ⟨⟨q, r⟩, hq, e⟩ := map_ok_rest h
      obtain ⟨q', ws1, h1, h2⟩ := bind_inv hq
      obtain ⟨_, ws2, h3, h4⟩ := bind_inv h2
      obtain ⟨_, ws3, h5, h6⟩ := bind_inv h4
      injection h6 with h6
      injection h6 with h6 h7
      subst h6
      dsimp only at e
      subst e
      unfold requireFullDate at h1
      obtain ⟨_, _, _, h1⟩ := bind_inv h1
      obtain ⟨_, _, _, h1⟩ := bind_inv h1
      obtain ⟨_, _, _, h1⟩ := bind_inv h1
      obtain ⟨_, _, _, h1⟩ := bind_inv h1
      obtain ⟨_, _, _, h1⟩ := bind_inv h1
      obtain ⟨_, _, _, h1⟩ := bind_inv h1
      obtain ⟨_, _, _, h1⟩ := bind_inv h1
      obtain ⟨_, _, _, h1⟩ := bind_inv h1
      obtain ⟨_, _, _, h1⟩ := bind_inv h1
      obtain ⟨_, _, _, h1⟩ := bind_inv h1
      obtain ⟨_, _, _, h1⟩ := bind_inv h1
      obtain ⟨_, _, _, h1⟩ := bind_inv h1
      obtain ⟨_, _, _, h1⟩ := bind_inv h1
      obtain ⟨x, hx, e⟩ := map_ok_rest h1
      injection e with e _
      subst e
      unfold makeFullDate at hx
      split at hx
      · cases hx
      · rename_i y hy
        split at hx
        · cases hx
        · injection hx with hx
          subst hx
          obtain ⟨hy2, hv⟩ := mkTimePoint_ok hy
          unfold mkTimePoint at hy
          rw [pCheck_valid hv] at hy
          change (checkTime _ >>= _) = _ at hy
          cases hc : checkTime _ with
          | error e => rw [hc] at hy; cases hy
          | ok t =>
            have := checkTime_ok hc
            subst hy2
            exact ⟨hv, this.2, rfl⟩

/-- **C137.**  A date with the name of another day is a syntax error, in the preferred format. -/
theorem weekday_exact (p : TimePoint) (hd : ValidDate p.date) (ht : LegalTime p.time) (n : Int) (h1 : 1 ≤ n) (h2 : n ≤ 7)
    (hn : n ≠ weekday p.date) :
    fullDateFromString (shortDay n ++ (rfc1123 p).drop 3) = some (.error .syntaxError) := by
  obtain ⟨w1, w2, w3⟩ := weekday_range hd
  have hd' := hd
  obtain ⟨d1, d2, d3, d4, d5, d6, d7, d8, d9⟩ := hd'
  obtain ⟨t1, t2, t3, t4, t5, t6, t7⟩ := id ht
  have d10 := daysIn_le (yearOf p.date) p.date.month
  have s1 := shortDay_ok h1 h2
  have s2 := monthName_ok d6 d7
  have hy : yearOf p.date = p.date.century * 100 + p.date.year := rfl
  have f1 := four_ok (n := yearOf p.date) (by omega) (by omega)
  have e1 := two_ok (n := p.date.day) (by omega) (by omega)
  have e2 := two_ok (n := p.time.hour) (by omega) (by omega)
  have e3 := two_ok (n := p.time.minute) (by omega) (by omega)
  have e4 := two_ok (n := p.time.second) (by omega) (by omega)
  have hr := read_rfc1123 s1.1 s1.2.1 e1.1 s2.1 s2.2.2.1 f1.1 e2.1 e3.1 e4.1
  have hl : ∀ m : Int, (shortDay m).length = 3 := by
    intro m
    unfold shortDay
    repeat' split
    all_goals rfl
  have htx : (rfc1123 p).drop 3 = ',' :: ' ' :: (two p.date.day ++ ' ' :: (monthName p.date.month ++ ' ' ::
      (four (yearOf p.date) ++ ' ' :: (two p.time.hour ++ ':' :: (two p.time.minute ++ ':' ::
        (two p.time.second ++ ' ' :: gmt)))))) := by
    unfold rfc1123 clock gmt
    simp only [List.append_assoc]
    rw [List.drop_append_of_le_length (by rw [hl]; exact Nat.le_refl _), List.drop_eq_nil_of_le (by rw [hl]; exact Nat.le_refl _)]
    simp
  rw [htx, hr, e1.2, f1.2, e2.2, e3.2, e4.2]
  have hok := make_valid hd ht (k := (weekday p.date - 1).toNat) (day := p.date.day.toNat) (month := (p.date.month - 1).toNat)
    (century := (yearOf p.date).toNat / 100) (year := (yearOf p.date).toNat % 100) (hour := p.time.hour.toNat)
    (minute := p.time.minute.toNat) (second := p.time.second.toNat) (by omega) (by omega) (by omega) (by omega) (by omega)
    (by omega) (by omega) (by omega)
  unfold makeFullDate at hok ⊢
  split at hok
  · cases hok
  · rename_i q hq
    split at hok
    · cases hok
    · injection hok with hok
      subst hok
      rw [if_pos]
      have := w3
      show (getWeekday p.date).2.2 ≠ _
      omega

/-- **C137 refuted.**  A time in another zone is written as if it were GMT: what is read is another instant. -/
theorem zone_refuted (p : TimePoint) (dir off : Int) (hd : ValidDate p.date) (ht : LegalTime p.time)
    (hz : p.time.zone = some (dir, off)) (h0 : dir * off ≠ 0) :
    ∃ q, fullDateFromString (formatFullDate p) = some (.ok q) ∧ q.time.zone = some (0, 0) ∧
      instant q 0 ≠ instant p (dir * off) := by
  obtain ⟨h1, h2, _⟩ := date_exact p hd ht
  refine ⟨inGmt p, by rw [h1]; exact h2, rfl, ?_⟩
  unfold instant secondsIntoDay inGmt
  dsimp only
  omega

/-- **C137 refuted.**  In the format with two digits the first day of the epoch is rejected, since 70 is taken for 2070;
a date that does not exist, and a time that does not, are no syntax errors. -/
theorem two_digit_refuted :
    rfc850 ⟨ymd 1970 1 1, ⟨0, 0, 0, some (0, 0)⟩⟩ = "Thursday, 01-Jan-70 00:00:00 GMT".toList ∧
    fullDateFromString "Thursday, 01-Jan-70 00:00:00 GMT".toList = some (.error .syntaxError) ∧
    fullDateFromString "Wed, 31 Feb 1999 00:00:00 GMT".toList = some (.error .dateError) ∧
    fullDateFromString "Sun, 06 Nov 1994 08:60:00 GMT".toList = some (.error .dateError) := by decide +kernel

/-- The hypotheses of the theorems about C137 are met by the example of RFC 2616. -/
theorem date_hypotheses :
    let p : TimePoint := ⟨ymd 1994 11 6, ⟨8, 49, 37, some (0, 0)⟩⟩
    ValidDate p.date ∧ LegalTime p.time ∧ inGmt p = p ∧
    rfc1123 p = "Sun, 06 Nov 1994 08:49:37 GMT".toList ∧
    rfc850 p = "Sunday, 06-Nov-94 08:49:37 GMT".toList ∧
    asctime p = "Sun Nov  6 08:49:37 1994".toList := by
  refine ⟨?_, ?_, rfl, by decide +kernel, by decide +kernel, by decide +kernel⟩
  · unfold ValidDate; decide +kernel
  · unfold LegalTime; decide

end Verif.Props
