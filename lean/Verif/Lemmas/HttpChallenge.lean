import Verif.Lemmas.HttpAuth
import Verif.Lemmas.HttpValues
import Verif.Lemmas.HttpOrder
import Verif.Props.HttpMedia

/-!
# Challenges
-/

namespace Verif.Http.Auth

open Verif Verif.Http Verif.Props

/-- A parameter that can be written: a name that is a token, and a value of octets, a token unless it is always
quoted. -/
def ParamOk (p : Str × Str × Bool) : Prop :=
  IsToken p.1 ∧ (∀ c ∈ p.2.1, c.toNat < 256) ∧ (p.2.2 = false → IsToken p.2.1)

/-- The words of a parameter. -/
def pwords (p : Str × Str × Bool) : Words := [some p.1, some ['='], some (quoteString p.2.1 p.2.2)]

/-- The words of parameters. -/
def pswords : List (Str × Str × Bool) → Words
  | [] => []
  | [p] => pwords p
  | p :: q :: ps => pwords p ++ some [','] :: pswords (q :: ps)

/-- The text of a parameter. -/
def ptext (p : Str × Str × Bool) : Str := p.1 ++ '=' :: quoteString p.2.1 p.2.2

theorem intercalate_cons2 (sep x y : Str) (l : List Str) :
    List.intercalate sep (x :: y :: l) = x ++ (sep ++ List.intercalate sep (y :: l)) := by
  simp [List.intercalate, List.intersperse]

theorem words_value {p : Str × Str × Bool} (h : ParamOk p) {rest : Str} {ws : Words}
    (hr : ∀ c u, rest = c :: u → isTok c = false) (hw : words true rest = some (.ok ws)) :
    words true (ptext p ++ rest) = some (.ok (pwords p ++ ws)) := by
  obtain ⟨n, v, q⟩ := p
  obtain ⟨h1, h2, h3⟩ := h
  have e : ptext (n, v, q) ++ rest = n ++ ('=' :: (quoteString v q ++ rest)) := by simp [ptext]
  rw [e]
  refine words_token ((token_iff n).mpr h1) (fun c u e => by injection e with e _; subst e; decide) ?_
  refine words_sep (by decide) (by decide) (by decide) (by decide) ?_
  cases q with
  | false =>
    have ht := (token_iff v).mpr (h3 rfl)
    rw [quote_token ht.2]
    exact words_token ht hr hw
  | true =>
    refine words_quoted ?_ hw
    rw [List.all_eq_true]
    intro c hc
    unfold isOctet
    exact decide_eq_true (h2 c hc)

theorem ptext_head {p : Str × Str × Bool} (h : ParamOk p) (rest : Str) : ∃ c u, ptext p ++ rest = c :: u ∧ isTok c = true := by
  obtain ⟨n, v, q⟩ := p
  have ht := (token_iff n).mpr h.1
  cases n with
  | nil => exact absurd rfl ht.1
  | cons c u =>
    refine ⟨c, u ++ '=' :: quoteString v q ++ rest, by simp [ptext], ?_⟩
    have := ht.2
    simp only [List.all_cons, Bool.and_eq_true] at this
    exact this.1

theorem words_params : ∀ (ps : List (Str × Str × Bool)), (∀ p ∈ ps, ParamOk p) →
    words true (List.intercalate [',', ' '] (ps.map ptext)) = some (.ok (pswords ps))
  | [], _ => words_nil true
  | [p], h => by
    have := words_value (h p (by simp)) (rest := []) (ws := []) (fun c u e => nomatch e) (words_nil true)
    rw [List.append_nil, List.append_nil] at this
    rw [pswords]
    simpa [List.intercalate] using this
  | p :: q :: ps, h => by
    have ih := words_params (q :: ps) (fun x hx => h x (List.mem_cons_of_mem _ hx))
    rw [List.map_cons, List.map_cons, intercalate_cons2]
    refine words_value (h p (by simp)) (fun c u e => by injection e with e _; subst e; decide) ?_
    have hh : ∃ c u, List.intercalate [',', ' '] ((q :: ps).map ptext) = c :: u ∧ isTok c = true := by
      cases ps with
      | nil =>
        obtain ⟨c, u, e, ht⟩ := ptext_head (h q (by simp)) []
        refine ⟨c, u, ?_, ht⟩
        rw [← e]
        simp [List.intercalate]
      | cons x xs =>
        rw [List.map_cons, List.map_cons, intercalate_cons2]
        exact ptext_head (h q (by simp)) _
    obtain ⟨c, u, e, ht⟩ := hh
    rw [List.map_cons] at ih e
    show words true (',' :: ' ' :: List.intercalate [',', ' '] (ptext q :: ps.map ptext)) = _
    refine words_sep (by decide) (by decide) (by decide) (by decide) ?_
    rw [e] at ih ⊢
    exact words_space (tok_not_sp ht).1 (tok_not_sp ht).2.2.2 ih

theorem isToken_tok {n : Str} (h : IsToken n) (ws : Words) : isToken (some n :: ws) = true := by
  have ht := (token_iff n).mpr h
  cases n with
  | nil => exact absurd rfl ht.1
  | cons c u =>
    have := ht.2
    simp only [List.all_cons, Bool.and_eq_true] at this
    show (!isSep c) = true
    rw [(tok_not_sp this.1).2.1]
    rfl

theorem tok_ne {n : Str} (h : IsToken n) (c : Char) (hc : isTok c = false) : n ≠ [c] := by
  intro e
  have ht := (token_iff n).mpr h
  rw [e] at ht
  have := ht.2
  simp only [List.all_cons, Bool.and_eq_true, hc] at this
  exact absurd this.1 (by decide)

theorem parseSP_other {w : Str} (h : w ≠ [' ']) (ws : Words) : parseSP (some w :: ws) = .ok ((), some w :: ws) := by
  unfold parseSP
  rw [if_neg]
  intro e
  injection e with e
  exact h e

theorem challengeParam_read {p : Str × Str × Bool} (h : ParamOk p) (ws : Words) :
    challengeParam (pwords p ++ ws) = .ok ([p], ws) := by
  obtain ⟨n, v, q⟩ := p
  obtain ⟨h1, h2, h3⟩ := h
  unfold challengeParam
  rw [bind_run]
  have e1 : parseToken (pwords (n, v, q) ++ ws) = .ok (some n, [some ['='], some (quoteString v q)] ++ ws) := by
    show (if isToken (some n :: _) then _ else _) = _
    rw [if_pos (isToken_tok h1 _)]
    rfl
  rw [e1]
  simp only [Except.bind]
  rw [bind_run]
  have e2 : challengeValue n ([some ['='], some (quoteString v q)] ++ ws) = .ok ((n, v, q), ws) := by
    unfold challengeValue
    rw [bind_run]
    show ((parseSP (some ['='] :: _)).bind _) = _
    rw [parseSP_other (by decide)]
    simp only [Except.bind]
    rw [bind_run]
    show (Except.ok ((), some (quoteString v q) :: ws)).bind _ = _
    simp only [Except.bind]
    have hq : quoteString v q ≠ [' '] := by
      cases q with
      | false =>
        have ht := (token_iff v).mpr (h3 rfl)
        rw [quote_token ht.2]
        exact tok_ne (h3 rfl) ' ' (by decide)
      | true => rw [quoteString_forced]; intro e; injection e with e _; exact absurd e (by decide)
    rw [bind_run, parseSP_other hq]
    simp only [Except.bind]
    rw [bind_run, get_run]
    simp only [Except.bind]
    cases q with
    | false =>
      have ht := (token_iff v).mpr (h3 rfl)
      rw [quote_token ht.2, if_pos (isToken_tok (h3 rfl) ws), bind_run]
      have : requireToken (some v :: ws) = .ok (v, ws) := by
        unfold requireToken
        rw [isToken_tok (h3 rfl) ws]
        rfl
      rw [this]
      rfl
    | true =>
      have hn : isToken (some (quoteString v true) :: ws) = false := by rw [quoteString_forced]; rfl
      rw [if_neg (by rw [hn]; decide), bind_run]
      have : parseQuotedString (some (quoteString v true) :: ws) = .ok (some v, ws) := by
        unfold parseQuotedString
        have h1 : isQuotedString (some (quoteString v true) :: ws) = true := by rw [quoteString_forced]; rfl
        rw [h1]
        show Except.ok (some (decodeQuoted (quoteString v true)), ws) = _
        rw [decode_quote]
      rw [this]
      rfl
  rw [e2]
  rfl

theorem challengeParams_read : ∀ (ps : List (Str × Str × Bool)) (n : Nat), (∀ p ∈ ps, ParamOk p) → ps.length ≤ n →
    challengeParams n (pswords ps) = .ok (ps, [])
  | [], n, _, _ => by cases n <;> rfl
  | [p], 0, _, h => absurd h (by simp)
  | [p], n + 1, h, _ => by
    rw [challengeParams, bind_run, get_run]
    simp only [Except.bind]
    show (if (cWord (pwords p)).isNone then _ else _ : P _) _ = _
    rw [if_neg (by simp [pwords, cWord]), bind_run]
    have := challengeParam_read (h p (by simp)) []
    rw [List.append_nil] at this
    show (challengeParam (pwords p)).bind _ = _
    rw [this]
    rfl
  | p :: q :: ps, 0, _, h => absurd h (by simp)
  | p :: q :: ps, n + 1, h, hn => by
    have ih := challengeParams_read (q :: ps) n (fun x hx => h x (List.mem_cons_of_mem _ hx)) (by simpa using hn)
    rw [challengeParams, bind_run, get_run]
    simp only [Except.bind]
    rw [if_neg (by simp [pswords, pwords, cWord]), bind_run]
    show (challengeParam (pwords p ++ some [','] :: pswords (q :: ps))).bind _ = _
    rw [challengeParam_read (h p (by simp))]
    simp only [Except.bind]
    rw [bind_run, parseSP_other (by decide)]
    simp only [Except.bind]
    rw [bind_run]
    have : parseSeparator ',' (some [','] :: pswords (q :: ps)) = .ok (true, pswords (q :: ps)) := by
      unfold parseSeparator
      exact if_pos rfl
    rw [this]
    simp only [Except.bind]
    rw [if_pos trivial, bind_run, ih]
    rfl

theorem pswords_length (ps : List (Str × Str × Bool)) : ps.length ≤ (pswords ps).length := by
  fun_induction pswords ps with
  | case1 => exact Nat.le_refl _
  | case2 p => simp [pwords]
  | case3 p q ps ih => simp only [List.length_append, List.length_cons] at ih ⊢; omega

theorem basic_token : IsToken "Basic".toList := by
  refine ⟨by decide, ?_⟩
  intro c hc
  have : ∀ c ∈ "Basic".toList, 32 < c.toNat ∧ c.toNat ≠ 127 ∧ c ∉ "()<>@,;:\\\"/[]?={}".toList := by decide +kernel
  exact this c hc

/-- The list of challenges that is read from the text of one basic challenge with parameters. -/
theorem listFromString_str (ps : List (Str × Str × Bool)) (hne : ps ≠ []) (h : ∀ p ∈ ps, ParamOk p) :
    ∃ text, Challenge.str ⟨some "Basic".toList, ps⟩ = .ok text ∧
      Challenge.listFromString text = some (.ok [mkChallenge (some "Basic".toList) ps]) := by
  refine ⟨"Basic".toList ++ ' ' :: List.intercalate [',', ' '] (ps.map ptext), ?_, ?_⟩
  · unfold Challenge.str
    simp only
    rw [if_neg]
    · rfl
    · cases ps with
      | nil => exact absurd rfl hne
      | cons a b => simp
  · have hw : words true ("Basic".toList ++ ' ' :: List.intercalate [',', ' '] (ps.map ptext)) =
        some (.ok (some "Basic".toList :: pswords ps)) := by
      refine words_token ((token_iff _).mpr basic_token) (fun c u e => by injection e with e _; subst e; decide) ?_
      have ih := words_params ps h
      have hh : ∃ c u, List.intercalate [',', ' '] (ps.map ptext) = c :: u ∧ isTok c = true := by
        cases ps with
        | nil => exact absurd rfl hne
        | cons q ps =>
          cases ps with
          | nil =>
            obtain ⟨c, u, e, ht⟩ := ptext_head (h q (by simp)) []
            refine ⟨c, u, ?_, ht⟩
            rw [← e]
            simp [List.intercalate]
          | cons x xs =>
            rw [List.map_cons, List.map_cons, intercalate_cons2]
            exact ptext_head (h q (by simp)) _
      obtain ⟨c, u, e, ht⟩ := hh
      rw [e] at ih ⊢
      exact words_space (tok_not_sp ht).1 (tok_not_sp ht).2.2.2 ih
    refine fromString_ok (r := []) hw ?_
    rw [bind_run, get_run]
    simp only [Except.bind]
    have hreq : requireChallenge (some "Basic".toList :: pswords ps) = .ok (mkChallenge (some "Basic".toList) ps, []) := by
      unfold requireChallenge
      rw [bind_run, parseSP_other (by decide)]
      simp only [Except.bind]
      rw [bind_run]
      have : requireToken (some "Basic".toList :: pswords ps) = .ok ("Basic".toList, pswords ps) := by
        unfold requireToken
        rw [isToken_tok basic_token]
        rfl
      rw [this]
      simp only [Except.bind]
      have hsp : parseSP (pswords ps) = .ok ((), pswords ps) := by
        cases ps with
        | nil => exact absurd rfl hne
        | cons q ps =>
          have hq := tok_ne (h q (by simp)).1 ' ' (by decide)
          cases ps with
          | nil => exact parseSP_other hq _
          | cons x xs => exact parseSP_other hq _
      rw [bind_run, hsp]
      simp only [Except.bind]
      rw [bind_run, get_run]
      simp only [Except.bind]
      rw [bind_run, challengeParams_read ps _ h (Nat.le_succ_of_le (pswords_length ps))]
      simp only [Except.bind]
      rw [if_pos (by decide +kernel)]
      rfl
    rw [bind_run, challengeLoop, bind_run]
    have : parseProduction requireChallenge (some "Basic".toList :: pswords ps) =
        .ok (some (mkChallenge (some "Basic".toList) ps), []) := by
      unfold parseProduction
      rw [hreq]
    rw [this]
    rfl

/-! ### Never more than one challenge -/

theorem parseSP_le {ws r : Words} {u : Unit} (h : parseSP ws = .ok (u, r)) : r.length ≤ ws.length := by
  unfold parseSP at h
  split at h <;> (injection h with h; injection h with _ h; subst h; simp)

theorem parseToken_le {ws r : Words} {a : Option Str} (h : parseToken ws = .ok (a, r)) : r.length ≤ ws.length := by
  unfold parseToken at h
  split at h <;> (injection h with h; injection h with _ h; subst h; simp)

theorem requireSeparator_le {ws r : Words} {c : Char} {u : Unit} (h : requireSeparator c ws = .ok (u, r)) : r.length ≤ ws.length := by
  unfold requireSeparator at h
  split at h
  · injection h with h; injection h with _ h; subst h; simp
  · cases h

theorem requireToken_le {ws r : Words} {a : Str} (h : requireToken ws = .ok (a, r)) : r.length ≤ ws.length := by
  unfold requireToken at h
  split at h
  · injection h with h; injection h with _ h; subst h; simp
  · cases h

theorem parseQuotedString_le {ws r : Words} {a : Option Str} (h : parseQuotedString ws = .ok (a, r)) : r.length ≤ ws.length := by
  unfold parseQuotedString at h
  split at h <;> (injection h with h; injection h with _ h; subst h; simp)

theorem bind_ok {α β : Type} {m : P α} {f : α → P β} {ws r : Words} {b : β} (h : (m >>= f) ws = .ok (b, r)) :
    ∃ a q, m ws = .ok (a, q) ∧ f a q = .ok (b, r) := by
  rw [bind_run] at h
  cases hm : m ws with
  | error e => rw [hm] at h; cases h
  | ok p => obtain ⟨a, q⟩ := p; rw [hm] at h; exact ⟨a, q, rfl, h⟩

theorem challengeValue_le {n : Str} {ws r : Words} {a : Str × Str × Bool} (h : challengeValue n ws = .ok (a, r)) :
    r.length ≤ ws.length := by
  replace h := bind_ok h
  obtain ⟨_, w1, h1, h⟩ := h
  replace h := bind_ok h
  obtain ⟨_, w2, h2, h⟩ := h
  replace h := bind_ok h
  obtain ⟨_, w3, h3, h⟩ := h
  replace h := bind_ok h
  obtain ⟨w, w4, h4, h⟩ := h
  have e1 := parseSP_le h1
  have e2 := requireSeparator_le h2
  have e3 := parseSP_le h3
  have e4 : w4 = w3 ∧ w = w3 := by
    rw [get_run] at h4
    injection h4 with h4
    injection h4 with h4 h5
    exact ⟨h5.symm, h4.symm⟩
  obtain ⟨e4, e5⟩ := e4
  subst e4 e5
  split at h
  · replace h := bind_ok h
    obtain ⟨v, w5, h5, h⟩ := h
    have e5 := requireToken_le h5
    injection h with h
    injection h with _ h
    subst h
    omega
  · replace h := bind_ok h
    obtain ⟨v, w5, h5, h⟩ := h
    have e5 := parseQuotedString_le h5
    cases v with
    | none => cases h
    | some v =>
      injection h with h
      injection h with _ h
      subst h
      omega

theorem challengeParam_le {ws r : Words} {a : List (Str × Str × Bool)} (h : challengeParam ws = .ok (a, r)) :
    r.length ≤ ws.length := by
  replace h := bind_ok h
  obtain ⟨t, w1, h1, h⟩ := h
  have e1 := parseToken_le h1
  cases t with
  | none =>
    injection h with h
    injection h with _ h
    subst h
    exact e1
  | some n =>
    replace h := bind_ok h
    obtain ⟨p, w2, h2, h⟩ := h
    have e2 := challengeValue_le h2
    injection h with h
    injection h with _ h
    subst h
    omega

theorem challengeParams_stop : ∀ (n : Nat) (ws r : Words) (a : List (Str × Str × Bool)), ws.length < n →
    challengeParams n ws = .ok (a, r) → cWord r ≠ some [',']
  | 0, ws, r, a, hn, _ => absurd hn (by omega)
  | n + 1, ws, r, a, hn, h => by
    rw [challengeParams] at h
    replace h := bind_ok h
    obtain ⟨w, w0, h0, h⟩ := h
    rw [get_run] at h0
    injection h0 with h0
    injection h0 with e0 e1
    subst e0 e1
    split at h
    · rename_i hc
      injection h with h
      injection h with _ h
      subst h
      intro e
      rw [e] at hc
      cases hc
    · replace h := bind_ok h
      obtain ⟨here, w1, h1, h⟩ := h
      replace h := bind_ok h
      obtain ⟨_, w2, h2, h⟩ := h
      replace h := bind_ok h
      obtain ⟨more, w3, h3, h⟩ := h
      have e1 := challengeParam_le h1
      have e2 := parseSP_le h2
      unfold parseSeparator at h3
      split at h3
      · rename_i hs
        injection h3 with h3
        injection h3 with h4 h5
        subst h4 h5
        rw [if_pos rfl] at h
        replace h := bind_ok h
        obtain ⟨rest, w4, h6, h⟩ := h
        injection h with h
        injection h with _ h
        subst h
        refine challengeParams_stop n _ _ _ ?_ h6
        cases w2 with
        | nil => cases hs
        | cons x w2 => simp only [List.tail_cons, List.length_cons] at e2 ⊢; omega
      · rename_i hs
        injection h3 with h3
        injection h3 with h4 h5
        subst h4 h5
        rw [if_neg (by decide)] at h
        injection h with h
        injection h with _ h
        subst h
        exact hs

theorem requireChallenge_stop {ws r : Words} {c : Challenge} (h : requireChallenge ws = .ok (c, r)) : cWord r ≠ some [','] := by
  replace h := bind_ok h
  obtain ⟨_, w1, h1, h⟩ := h
  replace h := bind_ok h
  obtain ⟨s, w2, h2, h⟩ := h
  replace h := bind_ok h
  obtain ⟨_, w3, h3, h⟩ := h
  replace h := bind_ok h
  obtain ⟨w, w4, h4, h⟩ := h
  rw [get_run] at h4
  injection h4 with h4
  injection h4 with e0 e1
  subst e0 e1
  replace h := bind_ok h
  obtain ⟨ps, w5, h5, h⟩ := h
  have hs := challengeParams_stop _ _ _ _ (Nat.lt_succ_self _) h5
  split at h
  · injection h with h
    injection h with _ h
    subst h
    exact hs
  · cases ps with
    | nil => cases h
    | cons p ps =>
      injection h with h
      injection h with _ h
      subst h
      exact hs

theorem challengeLoop_one : ∀ (n : Nat) (ws r : Words) (cs : List Challenge), challengeLoop n ws = .ok (cs, r) → cs.length ≤ 1
  | 0, ws, r, cs, h => by injection h with h; injection h with h _; subst h; exact Nat.zero_le _
  | n + 1, ws, r, cs, h => by
    rw [challengeLoop] at h
    replace h := bind_ok h
    obtain ⟨c, w1, h1, h⟩ := h
    replace h := bind_ok h
    obtain ⟨more, w2, h2, h⟩ := h
    replace h := bind_ok h
    obtain ⟨rest, w3, h3, h⟩ := h
    injection h with h
    injection h with h _
    subst h
    cases c with
    | none =>
      cases more with
      | true => rw [if_pos rfl] at h3; simpa using challengeLoop_one n _ _ _ h3
      | false =>
        rw [if_neg (by decide)] at h3
        injection h3 with h3
        injection h3 with h3 _
        subst h3
        exact Nat.zero_le _
    | some c =>
      have hs : cWord w1 ≠ some [','] := by
        unfold parseProduction at h1
        split at h1
        · rename_i hr
          injection h1 with h1
          injection h1 with h4 h5
          injection h4 with h4
          subst h4 h5
          exact requireChallenge_stop hr
        · injection h1 with h1; injection h1 with h1 _; cases h1
        · cases h1
      have hm : more = false := by
        unfold parseSeparator at h2
        rw [if_neg hs] at h2
        injection h2 with h2
        injection h2 with h2 _
        exact h2.symm
      subst hm
      rw [if_neg (by decide)] at h3
      injection h3 with h3
      injection h3 with h3 _
      subst h3
      exact Nat.le_refl _

theorem list_at_most_one {source : Str} {cs : List Challenge} (h : Challenge.listFromString source = some (.ok cs)) :
    cs.length ≤ 1 := by
  unfold Challenge.listFromString Http.fromString at h
  cases hw : words true source with
  | none => rw [hw] at h; cases h
  | some e =>
    cases e with
    | error e => rw [hw] at h; cases h
    | ok ws =>
      rw [hw] at h
      injection h with h
      change (Except.map _ _) = _ at h
      obtain ⟨p, hp, e⟩ := map_ok_rest h
      obtain ⟨a, q⟩ := p
      subst e
      replace hp := bind_ok hp
      obtain ⟨w, w1, h1, hp⟩ := hp
      replace hp := bind_ok hp
      obtain ⟨cs, w2, h2, hp⟩ := hp
      replace hp := bind_ok hp
      obtain ⟨_, w3, h3, hp⟩ := hp
      injection hp with hp
      injection hp with hp _
      subst hp
      exact challengeLoop_one _ _ _ _ h2

/-! ### Looking parameters up -/

/-- One round of the loop that fills the dictionary. -/
def fill (d : List (Str × Str)) (p : Str × Str × Bool) : List (Str × Str) :=
  if (Dict.get (Dict.set d p.1 p.2.1) (Py.lower p.1)).isSome then Dict.set d p.1 p.2.1
  else Dict.set (Dict.set d p.1 p.2.1) (Py.lower p.1) p.2.1

theorem pdict_fold (ps : List (Str × Str × Bool)) : pdict ps = ps.foldl fill [] := rfl

theorem fill_get (d : List (Str × Str)) (p : Str × Str × Bool) (k : Str) : Dict.get (fill d p) k =
    if k = p.1 then some p.2.1 else if Dict.get d k = none ∧ k = Py.lower p.1 then some p.2.1 else Dict.get d k := by
  unfold fill
  rw [Dict.get_set]
  by_cases hl : Py.lower p.1 = p.1
  · rw [if_pos hl, if_pos Option.isSome_some, Dict.get_set]
    by_cases hk : k = p.1
    · rw [if_pos hk, if_pos hk]
    · rw [if_neg hk, if_neg hk, if_neg]
      rintro ⟨_, e⟩
      exact hk (e.trans hl)
  · rw [if_neg hl]
    by_cases hs : (Dict.get d (Py.lower p.1)).isSome = true
    · rw [if_pos hs, Dict.get_set]
      by_cases hk : k = p.1
      · rw [if_pos hk, if_pos hk]
      · rw [if_neg hk, if_neg hk, if_neg]
        rintro ⟨e1, e2⟩
        rw [← e2, e1] at hs
        cases hs
    · rw [if_neg hs, Dict.get_set, Dict.get_set]
      by_cases hk : k = p.1
      · rw [if_pos hk, if_pos hk, if_neg]
        intro e
        exact hl (e.symm.trans hk)
      · rw [if_neg hk, if_neg hk]
        by_cases he : k = Py.lower p.1
        · rw [if_pos he, if_pos]
          refine ⟨?_, he⟩
          rw [he]
          cases hd : Dict.get d (Py.lower p.1) with
          | none => rfl
          | some v => rw [hd] at hs; exact absurd rfl hs
        · rw [if_neg he, if_neg (fun e => he e.2)]

/-- What is found under a name: the last parameter of that name, or one whose name in small letters it is. -/
theorem pdict_get (ps : List (Str × Str × Bool)) (k : Str) :
    (∀ v, Dict.get (pdict ps) k = some v → ∃ p ∈ ps, v = p.2.1 ∧ (p.1 = k ∨ Py.lower p.1 = k)) ∧
    (∀ p ∈ ps, p.1 = k ∨ Py.lower p.1 = k → (Dict.get (pdict ps) k).isSome = true) ∧
    (∀ p ∈ ps, p.1 = k → ∃ q ∈ ps, q.1 = k ∧ Dict.get (pdict ps) k = some q.2.1) := by
  rw [pdict_fold]
  rcases List.eq_nil_or_concat ps with rfl | ⟨l, a, rfl⟩
  · exact ⟨(fun v h => nomatch h), (fun p h => nomatch h), (fun p h => nomatch h)⟩
  · have : l.length < (l.concat a).length := by simp
    obtain ⟨h1, h2, h3⟩ := pdict_get l k
    rw [pdict_fold] at h1 h2 h3
    rw [List.concat_eq_append, List.foldl_append]
    show _ ∧ _ ∧ _
    rw [List.foldl_cons, List.foldl_nil, fill_get]
    refine ⟨?_, ?_, ?_⟩
    · intro v hv
      split at hv
      · rename_i e
        injection hv with hv
        exact ⟨a, by simp, hv.symm, .inl e.symm⟩
      · split at hv
        · rename_i e
          injection hv with hv
          exact ⟨a, by simp, hv.symm, .inr e.2.symm⟩
        · obtain ⟨p, hp, e⟩ := h1 v hv
          exact ⟨p, by simp [hp], e⟩
    · intro p hp hk
      split
      · rfl
      · rename_i hne
        split
        · rfl
        · rename_i hne2
          rw [List.mem_append, List.mem_singleton] at hp
          rcases hp with hp | hp
          · exact h2 p hp hk
          · subst hp
            rcases hk with hk | hk
            · exact absurd hk.symm hne
            · cases hd : Dict.get (l.foldl fill []) k with
              | none => exact absurd ⟨hd, hk.symm⟩ hne2
              | some v => rfl
    · intro p hp hk
      split
      · rename_i e
        exact ⟨a, by simp, e.symm, rfl⟩
      · rename_i hne
        rw [List.mem_append, List.mem_singleton] at hp
        rcases hp with hp | hp
        · obtain ⟨q, hq, e1, e2⟩ := h3 p hp hk
          rw [if_neg (fun e => by rw [e2] at e; cases e.1)]
          exact ⟨q, by simp [hq], e1, e2⟩
        · subst hp; exact absurd hk.symm hne
termination_by ps.length

/-- A challenge has a realm, and making it again from its parameters changes nothing. -/
theorem mkChallenge_again (s : Option Str) (ps : List (Str × Str × Bool)) :
    mkChallenge s (mkChallenge s ps).params = mkChallenge s ps := by
  unfold mkChallenge
  by_cases h : (Dict.get (pdict ps) "realm".toList).isSome = true
  · simp only [if_pos h]
  · simp only [if_neg h]
    rw [if_pos]
    exact (pdict_get _ _).2.1 ("realm".toList, "Default".toList, true) (by simp) (.inl rfl)

end Verif.Http.Auth
