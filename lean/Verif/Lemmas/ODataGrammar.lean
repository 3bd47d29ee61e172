import Verif.Lemmas.ODataLitRead
import Verif.Lemmas.ODataFuel

/-!
# Reading expressions (lemmas)
-/

namespace Verif.OData

open Verif Verif.Spec.OData

/-- What may follow an operand. -/
def Stop (rest : Str) : Prop := Sep rest ∧ NoHead (· == '(') (wsp rest)

/-- The text begins with something that is not white space. -/
def Starts (t : Str) : Prop := ∃ c u, t = c :: u ∧ isWsp c = false

theorem Blank.isWsp {w : Str} (h : Blank w) : ∀ c ∈ w, isWsp c = true := by
  intro c hc
  rcases h c hc with rfl | rfl <;> decide

theorem wsp_of {s : Str} (h : NoHead isWsp s) : wsp s = s := by
  have := (takeWhile_all (p := isWsp) (d := []) (rest := s) (by simp) h).2
  simpa [wsp] using this

theorem wsp_noHead (s : Str) : NoHead isWsp (wsp s) := by
  intro c t h
  have : ∀ s : Str, (s.dropWhile isWsp) = c :: t → isWsp c = false := by
    intro s
    induction s with
    | nil => intro h; cases h
    | cons d u ih =>
      rw [List.dropWhile_cons]
      split
      · exact ih
      · next hd => intro h; injection h with h _; rw [← h]; simpa using hd
  exact this s h

theorem wsp_wsp (s : Str) : wsp (wsp s) = wsp s := wsp_of (wsp_noHead s)

theorem wsp_blank {w s : Str} (h : Blank w) : wsp (w ++ s) = wsp s := by
  induction w with
  | nil => rfl
  | cons c w ih =>
    have hc := Blank.isWsp h c (by simp)
    rw [List.cons_append, wsp, List.dropWhile_cons, if_pos hc]
    exact ih (fun d hd => h d (by simp [hd]))

theorem Starts.noHead {t rest : Str} (h : Starts t) : NoHead isWsp (t ++ rest) := by
  obtain ⟨c, u, rfl, hc⟩ := h
  exact noHead_cons hc

theorem Starts.append {t u : Str} (h : Starts t) : Starts (t ++ u) := by
  obtain ⟨c, v, rfl, hc⟩ := h
  exact ⟨c, v ++ u, rfl, hc⟩

theorem C_wsp (T : Tables) (ops : List Open) {s s' : Str} (h : wsp s = wsp s') : C T ops s = C T ops s' := by
  rw [C_eq, C_eq, h]

theorem nextOp_wsp (T : Tables) {s s' : Str} (h : wsp s = wsp s') : nextOp T s = nextOp T s' := by
  unfold nextOp
  rw [h]

theorem cont_wsp (T : Tables) (ops : List Open) (e : Expr) {s s' : Str} (h : wsp s = wsp s') :
    cont T ops e s = cont T ops e s' := by
  unfold cont
  rw [nextOp_wsp T h]

/-- An operand without open operators. -/
theorem C_value {T : Tables} {ops : List Open} {s r rest : Str} {e : Expr} (hs : NoHead isWsp s)
    (h : Tm T s = .ok (.value e, r)) (hr : wsp r = wsp rest) : C T ops s = cont T ops e rest := by
  rw [C_eq, wsp_of hs, h]
  exact cont_wsp T ops e hr

theorem finish_append : ∀ (q r : List Open) (x : Expr), finish (q ++ r) x = finish r (finish q x)
  | [], _, _ => rfl
  | l :: q, r, x => by rw [List.cons_append, finish, finish, finish_append q r]

theorem bindOp_append : ∀ (q ops : List Open) (x : Expr) (r : Open), (∀ l ∈ q, r.op.cat ≤ l.op.cat) →
    bindOp (q ++ ops) (some x) r = bindOp ops (some (finish q x)) r
  | [], _, _, _, _ => rfl
  | l :: q, ops, x, r, h => by
    rw [List.cons_append, bindOp, if_neg (by have := h l (by simp); omega), finish]
    exact bindOp_append q ops _ r (fun a ha => h a (by simp [ha]))

theorem bindOp_weak {ops : List Open} {x : Option Expr} {r : Open} (h : ∀ l tl, ops = l :: tl → l.op.cat < r.op.cat) :
    bindOp ops x r = r.give x :: ops := by
  cases ops with
  | nil => rfl
  | cons l tl => rw [bindOp, if_pos (h l tl rfl)]

/-! ## Tokens -/

theorem infix_facts {k : Nat} {name : Str} {op : Oper} (h : Infix k name op) :
    Oper.decode name = some op ∧ op.special = false ∧ op.cat = k ∧ name ≠ [] ∧ (∀ c ∈ name, Py.isLetter c = true) ∧
      op ≠ .member ∧ 2 ≤ k ∧ k ≤ 7 := by
  cases h <;> decide +kernel

theorem blank_ends {T : Tables} {w t : Str} (h : Blank w) (h0 : w ≠ []) : Ends T (w ++ t) := by
  cases w with
  | nil => exact absurd rfl h0
  | cons c w =>
    rcases h c (by simp) with rfl | rfl <;> exact ends_cons (by decide) (by decide) (by decide)

theorem letter_noWsp {n t : Str} (h0 : n ≠ []) (h : ∀ c ∈ n, Py.isLetter c = true) : NoHead isWsp (n ++ t) := by
  refine noHead_append h0 (fun c hc => ?_)
  have := h c hc
  unfold isWsp
  rw [Bool.or_eq_false_iff]
  constructor
  · rw [beq_eq_false_iff_ne]; rintro rfl; revert this; decide
  · rw [beq_eq_false_iff_ne]; rintro rfl; revert this; decide

theorem nextOp_name {T : Tables} {k : Nat} {name w w' t : Str} {op : Oper} (h : Infix k name op) (hw : Blank w)
    (hw' : Blank w') (h0 : w' ≠ []) :
    nextOp T (w ++ (name ++ (w' ++ t))) = (some { unary := false, op := op, args := [] }, w' ++ t) := by
  obtain ⟨h1, h2, _, h4, h5, _⟩ := infix_facts h
  have he := blank_ends (T := T) (t := t) hw' h0
  unfold nextOp
  rw [wsp_blank hw, wsp_of (letter_noWsp h4 h5)]
  split
  · next he =>
    cases name with
    | nil => exact absurd rfl h4
    | cons c n =>
      injection he with he _
      have := h5 c (by simp)
      subst he
      exact absurd this (by decide)
  · rw [ident_read (letters_ident h4 h5) he.1 he.2]
    dsimp only
    rw [h1]
    dsimp only
    rw [if_neg (by simp [h2])]

theorem nextOp_slash {T : Tables} {t : Str} :
    nextOp T ('/' :: t) = (some { unary := false, op := .member, args := [] }, t) := by
  unfold nextOp
  rw [wsp_of (noHead_cons (by decide))]
  rfl

/-- The expression ends at the end of the text, at a closing bracket and at a comma. -/
theorem nextOp_end {T : Tables} {w s : Str} (hw : Blank w) (hs : s = [] ∨ ∃ t, s = ')' :: t ∨ s = ',' :: t) :
    nextOp T (w ++ s) = (none, s) := by
  have hn : NoHead isWsp s := by
    rcases hs with rfl | ⟨t, rfl | rfl⟩
    · exact noHead_nil
    · exact noHead_cons (by decide)
    · exact noHead_cons (by decide)
  unfold nextOp
  rw [wsp_blank hw, wsp_of hn]
  rcases hs with rfl | ⟨t, rfl | rfl⟩
  · rfl
  · dsimp only [simpleIdentifier]
    have hst : T.start ')' = false := start_ascii_false (by decide) (by decide)
    simp [identLoop, hst]
  · dsimp only [simpleIdentifier]
    have hst : T.start ',' = false := start_ascii_false (by decide) (by decide)
    simp [identLoop, hst]

theorem meth_facts : ∀ m : Meth, keyword m.name = .other ∧ m.name ≠ ['n', 'o', 't'] ∧ m.name ≠ ['i', 's', 'o', 'f'] ∧
    m.name ≠ ['c', 'a', 's', 't'] ∧ Meth.decode m.name = some m ∧ m.name ≠ [] ∧ ∀ c ∈ m.name, Py.isLetter c = true := by
  intro m
  cases m <;> decide +kernel

theorem named_other {T : Tables} {n rest : Str} (hn : Ident T n) (hr : Ends T rest) (hk : keyword n = .other) :
    uriLiteral T (n ++ rest) = .ok (none, n ++ rest) := by
  unfold uriLiteral
  rw [ident_read hn hr.1 hr.2]
  dsimp only
  rw [namedLiteral, hk]

theorem property_facts {T : Tables} {n : Str} (h : PropertyName T n) : keyword n = .other := by
  obtain ⟨_, h1, _, _, _, h2⟩ := h
  unfold keyword
  rw [if_neg (by exact h1)]
  have : keywords.find? (fun k => k.1 = Py.lower n) = none := by
    rw [List.find?_eq_none]
    intro k hk hp
    have hp := of_decide_eq_true hp
    refine h2 ?_
    rw [← hp]
    have : ∀ k ∈ keywords, k.1 ∈ ["null".toList, "true".toList, "false".toList, "datetimeoffset".toList, "datetime".toList,
        "time".toList, "binary".toList, "nand".toList, "nanf".toList, "infd".toList, "inff".toList, "guid".toList] := by
      decide +kernel
    exact this k hk
  rw [this]

theorem start_noWsp {T : Tables} {c : Char} (h : T.start c = true) : isWsp c = false := by
  unfold isWsp
  rw [Bool.or_eq_false_iff]
  constructor
  · rw [beq_eq_false_iff_ne]
    rintro rfl
    rw [start_ascii_false (by decide) (by decide)] at h
    cases h
  · rw [beq_eq_false_iff_ne]
    rintro rfl
    rw [start_ascii_false (by decide) (by decide)] at h
    cases h

theorem ident_starts {T : Tables} {n : Str} (h : Ident T n) : Starts n := by
  obtain ⟨c, t, rfl, hc⟩ := Ident.ne h
  exact ⟨c, t, rfl, start_noWsp hc⟩

theorem Tm_prop {T : Tables} {n rest : Str} (h : PropertyName T n) (hr : Stop rest) :
    Tm T (n ++ rest) = .ok (.value (.prop n), wsp rest) := by
  have he := hr.1.ends (T := T)
  rw [Tm_eq, named_other h.1 he (property_facts h)]
  dsimp only
  rw [ident_read h.1 he.1 he.2]
  dsimp only
  rw [if_neg (show n ≠ ['n', 'o', 't'] from h.2.2.1), if_neg (show n ≠ ['i', 's', 'o', 'f'] from h.2.2.2.1),
    if_neg (show n ≠ ['c', 'a', 's', 't'] from h.2.2.2.2.1)]
  split
  · next u hu => have := hr.2 '(' u hu; simp at this
  · rfl

theorem Tm_call {T : Tables} {m : Meth} {t rest : Str} {es : List Expr} (h : Ar T (t ++ rest) = .ok (es, rest)) :
    Tm T (m.name ++ '(' :: (t ++ rest)) = .ok (.value (.call m es), rest) := by
  obtain ⟨h1, h2, h3, h4, h5, h6, h7⟩ := meth_facts m
  have he : Ends T ('(' :: (t ++ rest)) := ends_cons (by decide) (by decide) (by decide)
  have hi := letters_ident (T := T) h6 h7
  rw [Tm_eq, named_other hi he h1]
  dsimp only
  rw [ident_read hi he.1 he.2]
  dsimp only
  rw [if_neg h2, if_neg h3, if_neg h4, wsp_of (noHead_cons (by decide))]
  show ((match Meth.decode m.name with
    | none => .error .valueError
    | some m => (Ar T (t ++ rest)).map fun r => (Operand.value (Expr.call m r.1), r.2)) : Except Fault (Operand × Str)) = _
  rw [h5]
  dsimp only
  rw [h]
  rfl

theorem uriLiteral_open {T : Tables} {t : Str} : uriLiteral T ('(' :: t) = .ok (none, '(' :: t) ∧
    simpleIdentifier T ('(' :: t) = none := by
  have hst : T.start '(' = false := start_ascii_false (by decide) (by decide)
  have h2 : simpleIdentifier T ('(' :: t) = none := by simp [simpleIdentifier, identLoop, hst]
  refine ⟨?_, h2⟩
  unfold uriLiteral
  rw [h2]
  rfl

theorem Tm_paren {T : Tables} {s r : Str} {e : Expr} (he : NotPrefixed e) (h : C T [] s = .ok (some e, ')' :: r)) :
    Tm T ('(' :: s) = .ok (.value e, r) := by
  rw [Tm_eq, uriLiteral_open.1]
  dsimp only
  rw [uriLiteral_open.2]
  show ((match C T [] s with
    | .error e => .error e
    | .ok (none, _) => .error .valueError
    | .ok (some e, t) => .ok (operand e, skipChar ')' t)) : Except Fault (Operand × Str)) = _
  rw [h]
  have h2 : operand e = .value e := by
    cases e <;> first | rfl | exact absurd he (by simp [NotPrefixed])
  simp [h2, skipChar, parseChar_self]

theorem not_facts : keyword ['n', 'o', 't'] = .other ∧ keyword ['i', 's', 'o', 'f'] = .other ∧
    keyword ['c', 'a', 's', 't'] = .other := by decide +kernel

theorem Tm_not {T : Tables} {w s : Str} (hw : Blank w) (h0 : w ≠ []) (hs : NoHead isWsp s) :
    Tm T ("not".toList ++ (w ++ s)) = .ok (.operator { unary := true, op := .boolNot, args := [] }, s) := by
  have he := blank_ends (T := T) (t := s) hw h0
  have hi : Ident T ['n', 'o', 't'] := letters_ident (by simp) (by decide)
  rw [show "not".toList = ['n', 'o', 't'] from rfl, Tm_eq, named_other hi he not_facts.1]
  dsimp only
  rw [ident_read hi he.1 he.2]
  dsimp only
  have hw2 : wsp (w ++ s) = s := by rw [wsp_blank hw, wsp_of hs]
  rw [if_pos rfl, hw2, if_neg]
  intro h
  have := congrArg List.length h
  rw [List.length_append] at this
  exact h0 (List.length_eq_zero_iff.1 (by omega))

/-- What is no number after a minus. -/
theorem minus_read {T : Tables} {t rest : Str} (h0 : t ≠ []) (h : ¬ NumberLike t) (hr : Sep rest) :
    uriLiteral T ('-' :: (t ++ rest)) = .ok (none, '-' :: (t ++ rest)) := by
  obtain ⟨c, u, rfl⟩ : ∃ c u, t = c :: u := by
    cases t with
    | nil => exact absurd rfl h0
    | cons c u => exact ⟨c, u, rfl⟩
  have hc : Py.isDigit c = false ∧ c ≠ '.' := by
    constructor
    · cases hd : Py.isDigit c with
      | false => rfl
      | true => exact absurd (Or.inl ⟨c, u, rfl, Or.inl hd⟩) h
    · rintro rfl; exact h (Or.inl ⟨_, u, rfl, Or.inr rfl⟩)
  have key : ∀ low : Str, low.length = 3 → (∀ x ∈ low, Py.isLetter x = true) → Py.lower ((c :: u).take 3) ≠ low →
      parseInsensitive low ((c :: u) ++ rest) = none := by
    intro low hl hx hn
    unfold parseInsensitive
    rw [if_neg]
    rintro ⟨_, h2⟩
    rw [hl, List.take_append] at h2
    by_cases hlen : 3 ≤ (c :: u).length
    · rw [show 3 - (c :: u).length = 0 by omega] at h2
      simp only [List.take_zero, List.append_nil] at h2
      exact hn h2
    · cases rest with
      | nil =>
        simp only [List.take_nil, List.append_nil] at h2
        exact hn h2
      | cons d v =>
        have hd : d ∈ (d :: v).take (3 - (c :: u).length) := by
          rw [show 3 - (c :: u).length = (2 - (c :: u).length) + 1 by omega]
          simp
        have hm := lower_letters h2 hx d (List.mem_append.2 (Or.inr hd))
        rcases hr d v rfl with rfl | rfl | rfl | rfl | rfl <;> (revert hm; decide)
  have hu : parseUnsigned true ((c :: u) ++ rest) = none := by
    unfold parseUnsigned parseDigits
    rw [List.cons_append, List.takeWhile_cons, List.dropWhile_cons]
    simp only [hc.1]
    have hp : parsePoint (c :: (u ++ rest)) = (none, c :: (u ++ rest)) := by
      unfold parsePoint
      rw [parseChar_none (noHead_cons (by simpa using hc.2))]
    simp [hp]
  rw [number_literal (Or.inl rfl)]
  unfold parseNumber parseNumeric parseSign
  rw [parseChar_self]
  dsimp only
  rw [key ['i', 'n', 'f'] rfl (by decide) (fun hh => h (Or.inr (Or.inl hh))),
    key ['n', 'a', 'n'] rfl (by decide) (fun hh => h (Or.inr (Or.inr hh)))]
  dsimp only
  rw [hu]

theorem Tm_minus {T : Tables} {t rest : Str} (h0 : t ≠ []) (h : ¬ NumberLike t) (hr : Sep rest) :
    Tm T ('-' :: (t ++ rest)) = .ok (.operator { unary := true, op := .negate, args := [] }, t ++ rest) := by
  have hst : T.start '-' = false := start_ascii_false (by decide) (by decide)
  have h2 : simpleIdentifier T ('-' :: (t ++ rest)) = none := by simp [simpleIdentifier, identLoop, hst]
  rw [Tm_eq, minus_read h0 h hr]
  dsimp only
  rw [h2]
  rfl

theorem literal_starts {T : Tables} {t : Str} {v : Lit} (h : Literal T t v) : Starts t := by
  have dig : ∀ {neg : Bool} {d r : Str}, Digits d → Starts (sign neg (d ++ r)) := by
    intro neg d r hd
    cases neg with
    | true => exact ⟨'-', _, rfl, by decide⟩
    | false =>
      cases d with
      | nil => exact absurd rfl hd.1
      | cons c u =>
        refine ⟨c, u ++ r, rfl, ?_⟩
        have := hd.2 c (by simp)
        unfold isWsp
        rw [Bool.or_eq_false_iff]
        constructor <;> (rw [beq_eq_false_iff_ne]; rintro rfl; revert this; decide)
  have word : ∀ {n : Str} (low : Str), low ≠ [] → (∀ c ∈ low, Py.isLetter c = true) → Py.lower n = low → Starts n := by
    intro n low h0 hl h
    exact ident_starts (lower_ident (T := T) h h0 hl)
  cases h with
  | null h => exact word _ (by decide) (by decide) h
  | true h => exact word _ (by decide) (by decide) h
  | false h => exact word _ (by decide) (by decide) h
  | @int32 neg _ hd => have := dig (neg := neg) (r := []) hd; rw [List.append_nil] at this; exact this
  | int64 hd => exact dig hd
  | whole hd => exact dig hd
  | decimal hd => exact dig hd
  | double hd => exact dig hd
  | doubleExp hd => exact dig hd
  | doubleWhole hd => exact dig hd
  | singleWhole hd => exact dig hd
  | single hd => exact dig hd
  | singleExp hd => exact dig hd
  | nanDouble h => exact word _ (by decide) (by decide) h
  | infDouble h => exact word _ (by decide) (by decide) h
  | negInfDouble => exact ⟨'-', _, rfl, by decide⟩
  | nanSingle h => exact word _ (by decide) (by decide) h
  | infSingle h => exact word _ (by decide) (by decide) h
  | negInfSingle => exact ⟨'-', _, rfl, by decide⟩
  | string => exact ⟨'\'', _, rfl, by decide⟩
  | binary h =>
    rcases h with rfl | h
    · exact ⟨'X', _, rfl, by decide⟩
    · exact (word _ (by decide) (by decide) h).append
  | guid h => exact (word _ (by decide) (by decide) h).append
  | dateTime h => exact (word _ (by decide) (by decide) h).append
  | time h => exact (word _ (by decide) (by decide) h).append
  | offset h => exact (word _ (by decide) (by decide) h).append

theorem Tm_lit {T : Tables} {t rest : Str} {v : Lit} (h : Literal T t v) (hr : Sep rest) :
    Tm T (t ++ rest) = .ok (.value (.lit v), rest) := by
  rw [Tm_eq, literal_read h hr]


theorem Tm_cast {T : Tables} {op : Oper} {name s r : Str} {e : Expr}
    (hn : (name = ['i', 's', 'o', 'f'] ∧ op = .isof) ∨ (name = ['c', 'a', 's', 't'] ∧ op = .cast))
    (h : Ca T op ('(' :: s) = .ok (e, r)) : Tm T (name ++ '(' :: s) = .ok (.value e, r) := by
  have he : Ends T ('(' :: s) := ends_cons (by decide) (by decide) (by decide)
  have hw : wsp ('(' :: s) = '(' :: s := wsp_of (noHead_cons (by decide))
  rcases hn with ⟨rfl, rfl⟩ | ⟨rfl, rfl⟩
  · have hi : Ident T ['i', 's', 'o', 'f'] := letters_ident (by simp) (by decide)
    rw [Tm_eq, named_other hi he not_facts.2.1]
    dsimp only
    rw [ident_read hi he.1 he.2]
    dsimp only
    rw [if_neg (by decide), if_pos rfl, hw, h]
    rfl
  · have hi : Ident T ['c', 'a', 's', 't'] := letters_ident (by simp) (by decide)
    rw [Tm_eq, named_other hi he not_facts.2.2]
    dsimp only
    rw [ident_read hi he.1 he.2]
    dsimp only
    rw [if_neg (by decide), if_neg (by decide), if_pos rfl, hw, h]
    rfl

/-! ## Expressions -/

/-- What reading does with a text of a level. -/
def Reads (T : Tables) (k : Nat) (t : Str) (e : Expr) : Prop :=
  Starts t ∧ ∀ ops rest, Stop rest → (∀ l tl, ops = l :: tl → l.op.cat < k) →
    ∃ q x, C T ops (t ++ rest) = cont T (q ++ ops) x rest ∧ (∀ l ∈ q, k ≤ l.op.cat) ∧ finish q x = e

theorem stop_blank {w t : Str} (h : Blank w) (ht : NoHead isWsp t) (hs : Sep t ∨ w ≠ []) (hp : NoHead (· == '(') t) : Stop (w ++ t) := by
  constructor
  · cases w with
    | nil => exact hs.resolve_right (by simp)
    | cons c w =>
      intro d u hd
      injection hd with h1 _
      subst h1
      rcases h c (by simp) with h | h
      · exact Or.inl h
      · exact Or.inr (Or.inl h)
  · rw [wsp_blank h, wsp_of ht]; exact hp

theorem sep_cons {c : Char} {t : Str} (h : c = ' ' ∨ c = '\t' ∨ c = ')' ∨ c = ',' ∨ c = '/') : Sep (c :: t) := by
  intro d u hd
  injection hd with h1 _
  subst h1
  exact h

/-- A whole expression. -/
theorem Reads.whole {T : Tables} {k : Nat} {t : Str} {e : Expr} (h : Reads T k t e) {w s : Str} (hw : Blank w)
    (hs : s = [] ∨ ∃ t, s = ')' :: t ∨ s = ',' :: t) : C T [] (t ++ (w ++ s)) = .ok (some e, s) := by
  have hst : Stop (w ++ s) := by
    rcases hs with rfl | ⟨u, rfl | rfl⟩
    · exact stop_blank hw noHead_nil (Or.inl (by intro c t h; cases h)) noHead_nil
    · exact stop_blank hw (noHead_cons (by decide)) (Or.inl (sep_cons (by simp))) (noHead_cons (by decide))
    · exact stop_blank hw (noHead_cons (by decide)) (Or.inl (sep_cons (by simp))) (noHead_cons (by decide))
  obtain ⟨q, x, h1, _, h3⟩ := h.2 [] (w ++ s) hst (by intro l tl h; cases h)
  rw [h1, cont, nextOp_end hw hs, List.append_nil]
  simp only [h3]

theorem Reads.blank {T : Tables} {k : Nat} {t : Str} {e : Expr} (h : Reads T k t e) {w w' s : Str} (hw : Blank w)
    (hw' : Blank w') (hs : s = [] ∨ ∃ t, s = ')' :: t ∨ s = ',' :: t) : C T [] (w ++ (t ++ (w' ++ s))) = .ok (some e, s) := by
  rw [C_wsp T [] (wsp_blank hw)]
  exact h.whole hw' hs

theorem reads_value {T : Tables} {t : Str} {e : Expr} (h0 : Starts t)
    (h : ∀ rest, Stop rest → ∃ r, Tm T (t ++ rest) = .ok (.value e, r) ∧ wsp r = wsp rest) : Reads T 10 t e := by
  refine ⟨h0, fun ops rest hr _ => ⟨[], e, ?_, by simp, rfl⟩⟩
  obtain ⟨r, h1, h2⟩ := h rest hr
  exact C_value h0.noHead h1 h2

theorem reads_infix {T : Tables} {k : Nat} {t u w w' name : Str} {op : Oper} {e f : Expr} (hi : Infix k name op)
    (h1 : Reads T k t e) (h2 : Reads T (k + 1) u f) (hw : Blank w) (h0 : w ≠ []) (hw' : Blank w') (h0' : w' ≠ []) :
    Reads T k (t ++ (w ++ (name ++ (w' ++ u)))) (.binary op [e, f]) := by
  obtain ⟨_, _, hc, hn, hl, _⟩ := infix_facts hi
  refine ⟨h1.1.append, fun ops rest hr hops => ?_⟩
  have hst : Stop (w ++ (name ++ (w' ++ (u ++ rest)))) := by
    refine stop_blank hw (letter_noWsp hn hl) (Or.inr h0) (noHead_append hn (fun c hc => ?_))
    have := hl c hc
    rw [beq_eq_false_iff_ne]
    rintro rfl
    exact absurd this (by decide)
  obtain ⟨q, x, e1, e2, e3⟩ := h1.2 ops _ hst hops
  obtain ⟨q', x', f1, f2, f3⟩ := h2.2 ({ unary := false, op := op, args := [e] } :: ops) rest hr
    (by intro l tl h; injection h with h _; subst h; show op.cat < k + 1; omega)
  refine ⟨q' ++ [{ unary := false, op := op, args := [e] }], x', ?_, ?_, ?_⟩
  · simp only [List.append_assoc, List.singleton_append]
    rw [e1, cont, nextOp_name hi hw hw' h0']
    dsimp only
    rw [bindOp_append q ops x _ (by intro l hl; have := e2 l hl; show op.cat ≤ _; omega), e3,
      bindOp_weak (by intro l tl h; have := hops l tl h; show _ < op.cat; omega)]
    show C T ({ unary := false, op := op, args := [e] } :: ops) _ = _
    rw [C_wsp T _ (wsp_blank hw'), f1]
  · intro l hl
    rcases List.mem_append.1 hl with h | h
    · have := f2 l h; omega
    · rw [List.mem_singleton.1 h]; show k ≤ op.cat; omega
  · rw [finish_append, f3]
    rfl

theorem reads_member {T : Tables} {t u : Str} {e f : Expr} (h1 : Reads T 9 t e) (h2 : Reads T 10 u f) :
    Reads T 9 (t ++ '/' :: u) (.binary .member [e, f]) := by
  refine ⟨h1.1.append, fun ops rest hr hops => ?_⟩
  have hst : Stop ([] ++ ('/' :: (u ++ rest))) :=
    stop_blank (by intro c hc; cases hc) (noHead_cons (by decide)) (Or.inl (sep_cons (by simp))) (noHead_cons (by decide))
  obtain ⟨q, x, e1, e2, e3⟩ := h1.2 ops _ hst hops
  obtain ⟨q', x', f1, f2, f3⟩ := h2.2 ({ unary := false, op := .member, args := [e] } :: ops) rest hr
    (by intro l tl h; injection h with h _; subst h; show 9 < 10; omega)
  refine ⟨q' ++ [{ unary := false, op := .member, args := [e] }], x', ?_, ?_, ?_⟩
  · simp only [List.append_assoc, List.cons_append]
    rw [List.nil_append] at e1
    rw [e1, cont, nextOp_slash]
    dsimp only
    rw [bindOp_append q ops x _ (by intro l hl; exact e2 l hl), e3,
      bindOp_weak (by intro l tl h; exact hops l tl h)]
    exact f1
  · intro l hl
    rcases List.mem_append.1 hl with h | h
    · have := f2 l h; omega
    · rw [List.mem_singleton.1 h]; show 9 ≤ 9; omega
  · rw [finish_append, f3]
    rfl

theorem reads_prefix {T : Tables} {t p : Str} {op : Oper} {e : Expr} (h1 : Reads T 9 t e) (hp : Starts (p ++ t)) (hc : op.cat = 8)
    (h : ∀ rest, Stop rest → ∃ r, Tm T (p ++ (t ++ rest)) = .ok (.operator { unary := true, op := op, args := [] }, r) ∧
      wsp r = wsp (t ++ rest)) : Reads T 8 (p ++ t) (.unary op [e]) := by
  refine ⟨hp, fun ops rest hr hops => ?_⟩
  obtain ⟨r, g1, g2⟩ := h rest hr
  obtain ⟨q, x, e1, e2, e3⟩ := h1.2 ({ unary := true, op := op, args := [] } :: ops) rest hr
    (by intro l tl h; injection h with h _; subst h; show op.cat < 9; omega)
  refine ⟨q ++ [{ unary := true, op := op, args := [] }], x, ?_, ?_, ?_⟩
  · have hh := hp.noHead (rest := rest)
    rw [List.append_assoc] at hh ⊢
    rw [C_eq, wsp_of hh, g1]
    dsimp only
    rw [bindOp_weak (by intro l tl h; have := hops l tl h; show _ < op.cat; omega)]
    show C T ({ unary := true, op := op, args := [] } :: ops) _ = _
    rw [C_wsp T _ g2, e1]
    simp
  · intro l hl
    rcases List.mem_append.1 hl with h | h
    · have := e2 l h; omega
    · rw [List.mem_singleton.1 h]; show 8 ≤ op.cat; omega
  · rw [finish_append, e3]
    rfl

theorem reads_cast {T : Tables} {op : Oper} {name t w s : Str} {e : Expr}
    (hn : (name = ['i', 's', 'o', 'f'] ∧ op = .isof) ∨ (name = ['c', 'a', 's', 't'] ∧ op = .cast))
    (h : Reads T 2 t e) (hw : Blank w) :
    Reads T 10 (name ++ '(' :: (t ++ ',' :: (w ++ (quote s ++ [')'])))) (.binary op [e, .lit (.string s)]) := by
  have h0 : Starts (name ++ '(' :: (t ++ ',' :: (w ++ (quote s ++ [')'])))) := by
    rcases hn with ⟨rfl, _⟩ | ⟨rfl, _⟩
    · exact ⟨'i', _, rfl, by decide⟩
    · exact ⟨'c', _, rfl, by decide⟩
  refine reads_value h0 (fun rest hr => ⟨rest, ?_, rfl⟩)
  have hq : Reads T 10 (quote s) (.lit (.string s)) :=
    reads_value (literal_starts (Literal.string (T := T))) (fun rest hr => ⟨rest, Tm_lit Literal.string hr.1, rfl⟩)
  simp only [List.append_assoc, List.cons_append, List.nil_append]
  refine Tm_cast hn ?_
  have nb : Blank ([] : Str) := by intro c hc; cases hc
  have e1 : C T [] (t ++ ',' :: (w ++ (quote s ++ ')' :: rest))) = .ok (some e, ',' :: (w ++ (quote s ++ ')' :: rest))) :=
    h.whole (w := []) nb (Or.inr ⟨_, Or.inr rfl⟩)
  have e2 : C T [] (w ++ (quote s ++ ')' :: rest)) = .ok (some (.lit (.string s)), ')' :: rest) :=
    hq.blank (w' := []) hw nb (Or.inr ⟨_, Or.inl rfl⟩)
  rw [Ca_eq, wsp_of (noHead_cons (by decide))]
  show ((match C T [] (t ++ ',' :: (w ++ (quote s ++ ')' :: rest))) with
      | .error e => .error e
      | .ok (none, _) => .error .valueError
      | .ok (some e, t) =>
        match wsp t with
        | ')' :: u => if isString e then .ok (.binary op [e], u) else .error .valueError
        | u =>
          match C T [] (wsp (skipChar ',' u)) with
          | .error e => .error e
          | .ok (none, _) => .error .valueError
          | .ok (some f, u) =>
            if isString f then .ok (.binary op [e, f], skipChar ')' (wsp u)) else .error .valueError) :
      Except Fault (Expr × Str)) = _
  rw [e1]
  dsimp only
  rw [wsp_of (s := ',' :: (w ++ (quote s ++ ')' :: rest))) (noHead_cons (by decide))]
  have e3 : C T [] (wsp (skipChar ',' (',' :: (w ++ (quote s ++ ')' :: rest))))) = .ok (some (.lit (.string s)), ')' :: rest) := by
    rw [skipChar, parseChar_self, Option.getD_some, C_wsp T [] (wsp_wsp _), e2]
  show ((match C T [] (wsp (skipChar ',' (',' :: (w ++ (quote s ++ ')' :: rest))))) with
          | .error e => .error e
          | .ok (none, _) => .error .valueError
          | .ok (some f, u) =>
            if isString f then .ok (.binary op [e, f], skipChar ')' (wsp u)) else .error .valueError) :
      Except Fault (Expr × Str)) = _
  rw [e3]
  simp [isString, wsp_of (s := ')' :: rest) (noHead_cons (by decide)), skipChar, parseChar_self]

theorem args_last {T : Tables} {t w w' rest : Str} {e : Expr} (h : Reads T 2 t e) (hw : Blank w) (hw' : Blank w') :
    Ar T (w ++ (t ++ (w' ++ ')' :: rest))) = .ok ([e], rest) := by
  have := h.blank (s := ')' :: rest) hw hw' (Or.inr ⟨_, Or.inl rfl⟩)
  rw [Ar_eq, C_wsp T [] (wsp_wsp _), this]
  dsimp only
  rw [wsp_of (noHead_cons (by decide))]
  rfl

theorem args_more {T : Tables} {t w w' u rest : Str} {e : Expr} {es : List Expr} (h : Reads T 2 t e) (hw : Blank w) (hw' : Blank w')
    (hu : Ar T u = .ok (es, rest)) :
    Ar T (w ++ (t ++ (w' ++ ',' :: u))) = .ok (e :: es, rest) := by
  have := h.blank (s := ',' :: u) hw hw' (Or.inr ⟨_, Or.inr rfl⟩)
  rw [Ar_eq, C_wsp T [] (wsp_wsp _), this]
  dsimp only
  rw [wsp_of (noHead_cons (by decide))]
  show Except.map _ (Ar T u) = _
  rw [hu]
  rfl

theorem denotes_reads {T : Tables} {k : Nat} {t : Str} {e : Expr} (h : Denotes T k t e) : Reads T k t e := by
  refine Denotes.rec (T := T) (motive_1 := fun k t e _ => Reads T k t e)
    (motive_2 := fun t es _ => ∀ rest, Ar T (t ++ rest) = .ok (es, rest)) ?_ ?_ ?_ ?_ ?_ ?_ ?_ ?_ ?_ ?_ ?_ ?_ ?_ h
  · intro t v hv
    exact reads_value (literal_starts hv) (fun rest hr => ⟨rest, Tm_lit hv hr.1, rfl⟩)
  · intro n hn
    exact reads_value (ident_starts hn.1) (fun rest hr => ⟨wsp rest, Tm_prop hn hr, wsp_wsp _⟩)
  · intro t w w' e _ he hw hw' ih
    refine reads_value ⟨'(', _, rfl, by decide⟩ (fun rest hr => ⟨rest, ?_, rfl⟩)
    simp only [List.append_assoc, List.cons_append, List.nil_append]
    exact Tm_paren he (ih.blank hw hw' (Or.inr ⟨_, Or.inl rfl⟩))
  · intro m t es _ ih
    refine reads_value ((ident_starts (letters_ident (T := T) (meth_facts m).2.2.2.2.2.1 (meth_facts m).2.2.2.2.2.2)).append)
      (fun rest hr => ⟨rest, ?_, rfl⟩)
    simp only [List.append_assoc, List.cons_append]
    exact Tm_call (ih rest)
  · intro t w e s _ hw ih
    exact reads_cast (Or.inl ⟨rfl, rfl⟩) ih hw
  · intro t w e s _ hw ih
    exact reads_cast (Or.inr ⟨rfl, rfl⟩) ih hw
  · intro t u e f _ _ ih1 ih2
    exact reads_member ih1 ih2
  · intro t w e _ hw hn ih
    have : '-' :: (w ++ t) = ('-' :: w) ++ t := rfl
    rw [this]
    refine reads_prefix ih ⟨'-', _, rfl, by decide⟩ rfl (fun rest hr => ⟨w ++ (t ++ rest), ?_, wsp_blank hw⟩)
    have h0 : w ++ t ≠ [] := by
      obtain ⟨c, u, rfl, _⟩ := ih.1
      simp
    have := Tm_minus (T := T) h0 hn hr.1
    rw [List.append_assoc] at this
    exact this
  · intro t w e _ hw h0 ih
    rw [← List.append_assoc]
    refine reads_prefix ih ⟨'n', _, rfl, by decide⟩ rfl (fun rest hr => ⟨t ++ rest, ?_, rfl⟩)
    rw [List.append_assoc]
    exact Tm_not hw h0 ih.1.noHead
  · intro k t u w w' name op e f hi _ _ hw h0 hw' h0' ih1 ih2
    exact reads_infix hi ih1 ih2 hw h0 hw' h0'
  · intro k t e _ ih
    refine ⟨ih.1, fun ops rest hr hops => ?_⟩
    obtain ⟨q, x, h1, h2, h3⟩ := ih.2 ops rest hr (by intro l tl h; have := hops l tl h; omega)
    exact ⟨q, x, h1, fun l hl => by have := h2 l hl; omega, h3⟩
  · intro t w w' e _ hw hw' ih rest
    simp only [List.append_assoc, List.cons_append, List.nil_append]
    exact args_last ih hw hw'
  · intro t u w w' e es _ hw hw' _ ih1 ih2 rest
    simp only [List.append_assoc, List.cons_append]
    exact args_more ih1 hw hw' (ih2 rest)

end Verif.OData
