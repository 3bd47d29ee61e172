import Verif.Lemmas.HttpWords
import Verif.Model.HttpValues

/-!
# Lemmas about the parsers of header values
-/

namespace Verif.Http

open Verif

set_option linter.unusedSimpArgs false

/-! ### Running the parsers -/

theorem bind_run {α β : Type} (m : P α) (f : α → P β) (ws : Words) :
    (m >>= f) ws = (m ws).bind fun p => f p.1 p.2 := rfl

theorem pure_run {α : Type} (a : α) (ws : Words) : (pure a : P α) ws = .ok (a, ws) := rfl

theorem throw_run {α : Type} (e : Fault) (ws : Words) : (throw e : P α) ws = .error e := rfl

theorem get_run (ws : Words) : (get : P Words) ws = .ok (ws, ws) := rfl

theorem ite_run {α : Type} (c : Prop) [Decidable c] (m n : P α) (ws : Words) :
    (if c then m else n) ws = if c then m ws else n ws := by split <;> rfl

theorem parseSP_sp (ws : Words) : parseSP (some [' '] :: ws) = .ok ((), ws) := rfl

theorem parseSP_other {ws : Words} (h : cWord ws ≠ some [' ']) : parseSP ws = .ok ((), ws) := by
  unfold parseSP; rw [if_neg h]

theorem token_head {t : Str} (h : Token t) : ∃ c u, t = c :: u ∧ isTok c = true ∧ isSep c = false := by
  obtain ⟨h1, h2⟩ := h
  cases t with
  | nil => exact absurd rfl h1
  | cons c u =>
    simp only [List.all_cons, Bool.and_eq_true] at h2
    exact ⟨c, u, rfl, h2.1, (tok_not_sp h2.1).2.1⟩

theorem isToken_token {t : Str} (h : Token t) (ws : Words) : isToken (some t :: ws) = true := by
  obtain ⟨c, u, rfl, _, hc⟩ := token_head h
  simp [isToken, cWord, hc]

theorem requireToken_token {t : Str} (h : Token t) (ws : Words) : requireToken (some t :: ws) = .ok (t, ws) := by
  unfold requireToken
  rw [isToken_token h]
  rfl

theorem token_ne_sep {t : Str} (h : Token t) {c : Char} (hc : isSep c = true) : t ≠ [c] := by
  obtain ⟨d, u, rfl, _, hd⟩ := token_head h
  intro e
  injection e with e _
  subst e
  rw [hc] at hd
  cases hd

theorem parseSP_token {t : Str} (h : Token t) (ws : Words) : parseSP (some t :: ws) = .ok ((), some t :: ws) :=
  parseSP_other (by simp [cWord]; exact token_ne_sep h (by decide))

theorem requireSeparator_self (c : Char) (ws : Words) : requireSeparator c (some [c] :: ws) = .ok ((), ws) := by
  simp [requireSeparator, cWord]

theorem parseSeparator_self (c : Char) (ws : Words) : parseSeparator c (some [c] :: ws) = .ok (true, ws) := by
  simp [parseSeparator, cWord]

theorem parseSeparator_other {c : Char} {ws : Words} (h : cWord ws ≠ some [c]) : parseSeparator c ws = .ok (false, ws) := by
  unfold parseSeparator; rw [if_neg h]

/-! ### Parameters -/

/-- A value that can be written as the value of a parameter. -/
def GoodValue (v : Str) : Prop := v ≠ [] ∧ (v.all isTok = true ∨ v.all isOctet = true)

/-- A parameter that can be written: the name is a token, the key its lower-case form. -/
def GoodParam (p : Param) : Prop := Token p.name ∧ p.key = Py.lower p.name ∧ GoodValue p.value

/-- A dictionary of parameters that can be written. -/
def GoodParams (ps : Params) : Prop := (∀ p ∈ ps, GoodParam p) ∧ ps.Pairwise fun a b => compare a.key b.key = .lt

/-- The words of a parameter. -/
def paramWords (ign : Bool) (p : Param) : Words :=
  some [';'] :: ((if ign then [] else [some [' ']]) ++ [some p.name, some ['='], some (quoteString p.value false)])

/-- What follows a parameter: the end, or a character that does not belong to a token. -/
def Stops (rest : Str) : Prop := ∀ c u, rest = c :: u → isTok c = false

theorem words_value {ign : Bool} {v rest : Str} {ws : Words} (hv : GoodValue v) (hr : Stops rest)
    (hw : words ign rest = some (.ok ws)) :
    words ign (quoteString v false ++ rest) = some (.ok (some (quoteString v false) :: ws)) := by
  cases ht : v.all isTok with
  | true => rw [quote_token ht]; exact words_token ⟨hv.1, ht⟩ hr hw
  | false =>
    have ho : v.all isOctet = true := by
      rcases hv.2 with h | h
      · rw [ht] at h; cases h
      · exact h
    rw [quote_other ht]
    exact words_quoted ho hw

theorem words_token_then {ign : Bool} {t rest : Str} {c : Char} {ws : Words} (ht : Token t) (hc : isTok c = false)
    (h : words ign (c :: rest) = some (.ok ws)) : words ign (t ++ c :: rest) = some (.ok (some t :: ws)) :=
  words_token ht (by intro d u e; injection e with e _; subst e; exact hc) h

theorem words_space_token {ign : Bool} {t rest : Str} {ws : Words} (ht : Token t)
    (h : words ign (t ++ rest) = some (.ok ws)) :
    words ign (' ' :: (t ++ rest)) = some (.ok ((if ign then [] else [some [' ']]) ++ ws)) := by
  obtain ⟨c, u, rfl, hc, _⟩ := token_head ht
  have := tok_not_sp hc
  exact words_space this.1 this.2.2.2 h

theorem words_params {ign : Bool} {ps : Params} {rest : Str} {ws : Words} (hp : ∀ p ∈ ps, GoodParam p) (hr : Stops rest)
    (hw : words ign rest = some (.ok ws)) :
    words ign (formatParameters ps ++ rest) = some (.ok (ps.flatMap (paramWords ign) ++ ws)) := by
  induction ps with
  | nil => exact hw
  | cons p ps ih =>
    have hp1 := hp p (by simp)
    have ih := ih (fun q hq => hp q (by simp [hq]))
    have hs : Stops (formatParameters ps ++ rest) := by
      cases ps with
      | nil => exact hr
      | cons q qs =>
        intro c u e
        unfold formatParameters at e
        simp only [List.flatMap_cons, List.cons_append] at e
        injection e with e _
        subst e
        decide
    have h1 := words_value hp1.2.2 hs ih
    have h2 := words_sep (c := '=') (by decide) (by decide) (by decide) (by decide) h1
    have h3 := words_token_then hp1.1 (by decide) h2
    have h4 := words_space_token hp1.1 h3
    have h5 := words_sep (c := ';') (by decide) (by decide) (by decide) (by decide) h4
    have e : formatParameters (p :: ps) ++ rest =
        ';' :: ' ' :: (p.name ++ '=' :: (quoteString p.value false ++ (formatParameters ps ++ rest))) := by
      unfold formatParameters
      simp
    rw [e, h5]
    simp [paramWords, List.flatMap_cons]

theorem isToken_value {v : Str} (hv : GoodValue v) (ws : Words) :
    (isToken (some (quoteString v false) :: ws) = true ∧ quoteString v false = v) ∨
    (isToken (some (quoteString v false) :: ws) = false ∧
      parseQuotedString (some (quoteString v false) :: ws) = .ok (some v, ws)) := by
  cases ht : v.all isTok with
  | true => rw [quote_token ht]; exact .inl ⟨isToken_token ⟨hv.1, ht⟩ ws, rfl⟩
  | false =>
    right
    rw [quote_other ht]
    constructor
    · rw [quoteString_forced]; rfl
    · have hd := decode_quote v
      rw [quoteString_forced] at hd ⊢
      unfold parseQuotedString
      simp only [List.cons_append] at hd ⊢
      show Except.ok (some (decodeQuoted _), ws) = _
      rw [hd]

theorem oneParam_good {p : Param} (hp : GoodParam p) (ia ign : Bool) (qm : Option Str) (hq : some p.key ≠ qm) (ws : Words) :
    oneParam ia qm (paramWords ign p ++ ws) = .ok (p, ws) := by
  obtain ⟨h1, h2, h3⟩ := hp
  have hv : ∀ ws, cWord (some (quoteString p.value false) :: ws) ≠ some [' '] := by
    intro ws
    cases ht : p.value.all isTok with
    | true => rw [quote_token ht]; simp [cWord]; exact token_ne_sep ⟨h3.1, ht⟩ (by decide)
    | false => rw [quote_other ht, quoteString_forced]; simp [cWord]
  have key : oneParam ia qm (some [';'] :: some p.name :: some ['='] :: some (quoteString p.value false) :: ws) = .ok (p, ws) := by
    unfold oneParam
    rw [bind_run, parseSP_other (by simp [cWord]), Except.bind, bind_run, requireSeparator_self, Except.bind, bind_run,
      parseSP_token h1, Except.bind, bind_run, requireToken_token h1, Except.bind]
    rw [if_neg (by rw [← h2]; exact hq)]
    have last : ∀ ws, (do
        requireSeparator '='
        if ia then parseSP
        let ws ← get
        if isToken ws then
          let v ← requireToken
          return ⟨Py.lower p.name, p.name, v⟩
        else
          match ← parseQuotedString with
          | some v => return ⟨Py.lower p.name, p.name, v⟩
          | none => throw .syntaxError : P Param) (some ['='] :: some (quoteString p.value false) :: ws) = .ok (p, ws) := by
      intro ws
      have rest : ((do
          let ws ← get
          if isToken ws then
            let v ← requireToken
            return ⟨Py.lower p.name, p.name, v⟩
          else
            match ← parseQuotedString with
            | some v => return ⟨Py.lower p.name, p.name, v⟩
            | none => throw .syntaxError : P Param)) (some (quoteString p.value false) :: ws) = .ok (p, ws) := by
        rw [bind_run, get_run, Except.bind]
        dsimp only
        rcases isToken_value h3 ws with ⟨h4, h5⟩ | ⟨h4, h5⟩
        · rw [if_pos h4, bind_run]
          have : requireToken (some (quoteString p.value false) :: ws) = .ok (quoteString p.value false, ws) := by
            unfold requireToken; rw [h4]; rfl
          rw [this, Except.bind, pure_run, h5, ← h2]
        · rw [if_neg (by rw [h4]; decide), bind_run, h5, Except.bind]
          show Except.ok _ = _
          rw [← h2]
      rw [bind_run, requireSeparator_self, Except.bind]
      cases ia with
      | false => exact rest
      | true =>
        dsimp only
        rw [if_pos rfl, bind_run, parseSP_other (hv ws), Except.bind]
        exact rest
    cases ia with
    | false => exact last ws
    | true =>
      dsimp only
      rw [if_pos rfl, bind_run, parseSP_other (by simp [cWord]), Except.bind]
      exact last ws
  cases ign with
  | true => exact key
  | false =>
    show oneParam ia qm (some [';'] :: some [' '] :: some p.name :: some ['='] :: some (quoteString p.value false) :: ws) = _
    rw [← key]
    unfold oneParam
    rw [bind_run, bind_run, parseSP_other (by simp [cWord]), parseSP_other (by simp [cWord]), Except.bind, Except.bind,
      bind_run, bind_run, requireSeparator_self, requireSeparator_self, Except.bind, Except.bind, bind_run, bind_run,
      parseSP_sp, parseSP_token h1]

theorem put_last {ps : Params} {p : Param} (h : ∀ q ∈ ps, compare q.key p.key = .lt) : Params.put p ps = ps ++ [p] := by
  induction ps with
  | nil => rfl
  | cons q ps ih =>
    have h1 : compare p.key q.key = .gt := by
      rw [Std.OrientedCmp.eq_swap (cmp := compare) (a := p.key), h q (by simp)]; rfl
    unfold Params.put
    rw [h1]
    simp only
    rw [ih (fun r hr => h r (by simp [hr]))]
    rfl

/-- The loop reads no further parameter here. -/
def LoopStops (ia : Bool) (qm : Option Str) (ws : Words) : Prop :=
  cWord ws = none ∨ oneParam ia qm ws = .error .syntaxError

theorem paramLoop_good {ia ign : Bool} {qm : Option Str} {ps acc : Params} {ws : Words} (n : Nat) (hn : ps.length ≤ n)
    (hp : ∀ p ∈ ps, GoodParam p) (hs : (acc ++ ps).Pairwise fun a b => compare a.key b.key = .lt)
    (hq : ∀ p ∈ ps, some p.key ≠ qm) (hw : LoopStops ia qm ws) :
    paramLoop ia qm n acc (ps.flatMap (paramWords ign) ++ ws) = .ok (acc ++ ps, ws) := by
  induction ps generalizing n acc with
  | nil =>
    rw [List.flatMap_nil, List.nil_append, List.append_nil]
    cases n with
    | zero => rfl
    | succ n =>
      unfold paramLoop
      rcases hw with h | h
      · rw [h]; rfl
      · cases hc : cWord ws with
        | none => rfl
        | some w =>
          rw [if_neg (by simp), h]
  | cons p ps ih =>
    cases n with
    | zero => simp at hn
    | succ n =>
      rw [List.flatMap_cons, List.append_assoc]
      unfold paramLoop
      rw [if_neg (by simp [paramWords, cWord]), oneParam_good (hp p (by simp)) ia ign qm (hq p (by simp))]
      simp only
      have hput : acc.put p = acc ++ [p] := by
        refine put_last fun q hq => ?_
        exact (List.pairwise_append.mp hs).2.2 q hq p (by simp)
      rw [hput, ih n (by simp only [List.length_cons] at hn; omega) (fun q hq => hp q (by simp [hq])) (by simpa using hs)
        (fun q h => hq q (by simp [h]))]
      simp

theorem parseParameters_good {ia ign : Bool} {qm : Option Str} {ps : Params} {ws : Words} (hp : GoodParams ps)
    (hq : ∀ p ∈ ps, some p.key ≠ qm) (hw : LoopStops ia qm ws) (hsp : cWord ws ≠ some [' ']) :
    parseParameters ia qm (ps.flatMap (paramWords ign) ++ ws) = .ok (ps, ws) := by
  have h1 : cWord (ps.flatMap (paramWords ign) ++ ws) ≠ some [' '] := by
    cases ps with
    | nil => exact hsp
    | cons p ps => simp [paramWords, cWord]
  unfold parseParameters
  rw [bind_run, parseSP_other h1, Except.bind, bind_run, get_run, Except.bind]
  have hlen : ps.length ≤ (ps.flatMap (paramWords ign) ++ ws).length := by
    rw [List.length_append]
    have : ∀ (qs : Params), qs.length ≤ (qs.flatMap (paramWords ign)).length := by
      intro qs
      induction qs with
      | nil => exact Nat.le_refl _
      | cons q qs ih => simp only [List.flatMap_cons, List.length_append, List.length_cons, paramWords]; omega
    have := this ps
    omega
  rw [paramLoop_good _ hlen hp.1 (by simpa using hp.2) hq hw]
  rfl

/-- A media type that can be written: type and subtype are tokens. -/
def GoodType (m : MediaType) : Prop := Token m.type ∧ Token m.subtype ∧ GoodParams m.params

/-- The media type in lower case, but for its parameters. -/
def lowered (m : MediaType) : MediaType := { m with type := Py.lower m.type, subtype := Py.lower m.subtype }

/-- The words of a media type. -/
def typeWords (ign : Bool) (m : MediaType) : Words :=
  some m.type :: some ['/'] :: some m.subtype :: m.params.flatMap (paramWords ign)

theorem words_type {ign : Bool} {m : MediaType} {rest : Str} {ws : Words} (hm : GoodType m) (hr : Stops rest)
    (hw : words ign rest = some (.ok ws)) : words ign (m.format ++ rest) = some (.ok (typeWords ign m ++ ws)) := by
  obtain ⟨h1, h2, h5⟩ := hm
  have hs : Stops (formatParameters m.params ++ rest) := by
    cases hp : m.params with
    | nil => exact hr
    | cons q qs =>
      intro c u e
      unfold formatParameters at e
      simp only [List.flatMap_cons, List.cons_append] at e
      injection e with e _
      subst e
      decide
  have a1 := words_params (ign := ign) h5.1 hr hw
  have a2 := words_token h2 hs a1
  have a3 := words_sep (c := '/') (by decide) (by decide) (by decide) (by decide) a2
  have a4 := words_token_then h1 (by decide) a3
  have e : m.format ++ rest = m.type ++ '/' :: (m.subtype ++ (formatParameters m.params ++ rest)) := by
    unfold MediaType.format
    simp
  rw [e, a4]
  rfl

theorem requireMediaType_good {ign : Bool} {qm : Option Str} {m : MediaType} {ws : Words} (hm : GoodType m)
    (hq : ∀ p ∈ m.params, some p.key ≠ qm) (hw : LoopStops false qm ws) (hsp : cWord ws ≠ some [' ']) :
    requireMediaType qm (typeWords ign m ++ ws) = .ok (lowered m, ws) := by
  obtain ⟨h1, h2, h5⟩ := hm
  unfold requireMediaType typeWords
  have hp : cWord (m.params.flatMap (paramWords ign) ++ ws) ≠ some [' '] := by
    cases m.params with
    | nil => exact hsp
    | cons p ps => simp [paramWords, cWord]
  simp only [List.cons_append]
  rw [bind_run, parseSP_token h1, Except.bind, bind_run, requireToken_token h1, Except.bind, bind_run, requireSeparator_self,
    Except.bind, bind_run, requireToken_token h2, Except.bind, bind_run, parseSP_other hp, Except.bind, bind_run,
    parseParameters_good h5 hq hw hsp, Except.bind, pure_run]
  rfl

/-! ### Sorting -/

theorem stableSort_of_sorted {α : Type} {le : α → α → Bool} {l : List α} (h : l.Pairwise fun a b => le a b = true) :
    Paging.stableSort le l = l := by
  induction l with
  | nil => rfl
  | cons a l ih =>
    have h1 := List.pairwise_cons.mp h
    show Paging.insertSorted le a (Paging.stableSort le l) = _
    rw [ih h1.2]
    cases l with
    | nil => rfl
    | cons b l => unfold Paging.insertSorted; rw [if_pos (h1.1 b (by simp))]

end Verif.Http
