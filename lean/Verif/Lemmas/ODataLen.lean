import Verif.Model.ODataExpr

/-! # How much of a text the readers of OData literals and expressions use -/

namespace Verif.OData

open Verif

theorem parseChar_len {c : Char} {s t : Str} (h : parseChar c s = some t) : t.length < s.length := by
  cases s with
  | nil => simp [parseChar] at h
  | cons d u =>
    simp only [parseChar] at h
    split at h
    · injection h with h; subst h; simp
    · simp at h

theorem requireChar_len {c : Char} {s t : Str} (h : requireChar c s = .ok t) : t.length < s.length := by
  unfold requireChar at h
  split at h
  · next he => injection h with h; subst h; exact parseChar_len he
  · simp at h

theorem dropWhile_le (p : Char → Bool) (s : Str) : (s.dropWhile p).length ≤ s.length := by
  induction s with
  | nil => simp
  | cons c t ih =>
    rw [List.dropWhile_cons]
    split
    · exact Nat.le_succ_of_le ih
    · exact Nat.le_refl _

theorem wsp_le (s : Str) : (wsp s).length ≤ s.length := dropWhile_le _ s

theorem upTo_le (p : Char → Bool) : ∀ (n : Nat) (s : Str), (upTo p n s).2.length ≤ s.length
  | 0, s => by simp [upTo]
  | n + 1, [] => by simp [upTo]
  | n + 1, c :: t => by
    simp only [upTo]
    split
    · exact Nat.le_succ_of_le (upTo_le p n t)
    · exact Nat.le_refl _

theorem exactly_le {p : Char → Bool} {k : Nat} {s a t : Str} (h : exactly p k s = some (a, t)) : t.length ≤ s.length := by
  unfold exactly at h
  split at h
  · injection h with h; have := upTo_le p k s; rw [h] at this; exact this
  · simp at h

theorem identLoop_le (T : Tables) : ∀ (b : Bool) (s a t : Str), identLoop T b s = some (a, t) →
    t.length + (if b then 1 else 0) ≤ s.length
  | true, [], a, t, h => by simp [identLoop] at h
  | true, c :: s, a, t, h => by
    simp only [identLoop] at h
    split at h
    · cases hr : identLoop T false s with
      | none => rw [hr] at h; simp at h
      | some r =>
        rw [hr] at h
        simp only [Option.map_some, Option.some.injEq, Prod.mk.injEq] at h
        have := identLoop_le T false s r.1 r.2 (by rw [hr])
        simp only [List.length_cons, if_true] at this ⊢
        rw [← h.2]
        simp at this
        omega
    · simp at h
  | false, [], a, t, h => by
    simp only [identLoop, Option.some.injEq, Prod.mk.injEq] at h
    rw [← h.2]; simp
  | false, c :: s, a, t, h => by
    simp only [identLoop] at h
    split at h
    · cases hr : identLoop T false s with
      | none => rw [hr] at h; simp at h
      | some r =>
        rw [hr] at h
        simp only [Option.map_some, Option.some.injEq, Prod.mk.injEq] at h
        have := identLoop_le T false s r.1 r.2 (by rw [hr])
        rw [← h.2]
        simp at this ⊢
        omega
    · split at h
      · cases hr : identLoop T true s with
        | none => rw [hr] at h; simp at h
        | some r =>
          rw [hr] at h
          simp only [Option.map_some, Option.some.injEq, Prod.mk.injEq] at h
          have := identLoop_le T true s r.1 r.2 (by rw [hr])
          rw [← h.2]
          simp at this ⊢
          omega
      · simp only [Option.some.injEq, Prod.mk.injEq] at h
        rw [← h.2]; simp

theorem ident_lt {T : Tables} {s a t : Str} (h : simpleIdentifier T s = some (a, t)) : t.length < s.length := by
  have := identLoop_le T true s a t h
  simp at this
  omega

theorem parseDigits_le (s : Str) : (parseDigits s).2.length ≤ s.length := dropWhile_le _ s

theorem takeWhile_drop_len (p : Char → Bool) (s : Str) : (s.takeWhile p).length + (s.dropWhile p).length = s.length := by
  have := congrArg List.length (List.takeWhile_append_dropWhile (p := p) (l := s))
  rw [List.length_append] at this
  exact this

theorem parseInteger_lt {a b : Nat} {m : Option Nat} {s t : Str} {n : Nat} (h : parseInteger a b m s = some (n, t)) :
    t.length ≤ s.length := by
  unfold parseInteger at h
  cases m with
  | none =>
    simp only at h
    split at h
    · simp at h
    · split at h
      · simp at h
      · simp only [Option.some.injEq, Prod.mk.injEq] at h; rw [← h.2]; exact parseDigits_le s
  | some k =>
    simp only at h
    split at h
    · simp at h
    · split at h
      · simp at h
      · simp only [Option.some.injEq, Prod.mk.injEq] at h; rw [← h.2]; exact upTo_le _ _ _

theorem parseExponent_le (s : Str) : (parseExponent s).2.length ≤ s.length := by
  unfold parseExponent
  cases s with
  | nil => simp [parseOne]
  | cons c t =>
    simp only [parseOne]
    split
    · exact Nat.le_refl _
    · next he =>
      split at he
      · simp only [Option.some.injEq, Prod.mk.injEq] at he
        obtain ⟨_, rfl⟩ := he
        cases hc : parseChar '-' t with
        | none => simp only; have := parseDigits_le t; simp; omega
        | some u => simp only; have := parseDigits_le u; have := parseChar_len hc; simp; omega
      · simp at he

theorem parsePoint_le (s : Str) : (parsePoint s).2.length ≤ s.length := by
  unfold parsePoint
  split
  · next u hc => have := parseChar_len hc; have := parseDigits_le u; simp only; omega
  · exact Nat.le_refl _

theorem parsePoint_lt {s : Str} (h : (parsePoint s).1 ≠ none) : (parsePoint s).2.length < s.length := by
  unfold parsePoint at h ⊢
  split
  · next u hc => have := parseChar_len hc; have := parseDigits_le u; simp only; omega
  · next hc => rw [hc] at h; simp at h

theorem parseUnsigned_lt {neg : Bool} {s t : Str} {n : Numeric} (h : parseUnsigned neg s = some (n, t)) :
    t.length < s.length := by
  unfold parseUnsigned at h
  have hd : (parseDigits s).1.length + (parseDigits s).2.length = s.length := takeWhile_drop_len _ s
  dsimp only at h
  split at h
  · simp at h
  · next hne =>
    simp only [Option.some.injEq, Prod.mk.injEq] at h
    rw [← h.2]
    have h1 := parseExponent_le (parsePoint (parseDigits s).2).2
    have h2 := parsePoint_le (parseDigits s).2
    by_cases he : (parseDigits s).1 = []
    · have h3 := parsePoint_lt (s := (parseDigits s).2) (fun e => hne ⟨he, by rw [e]; rfl⟩)
      omega
    · have h3 : 0 < (parseDigits s).1.length := List.length_pos_iff.mpr he
      omega

theorem parseSign_le (s : Str) : (parseSign s).2.length ≤ s.length := by
  unfold parseSign
  split
  · next u hc => have := parseChar_len hc; simp only; omega
  · exact Nat.le_refl _

theorem parseInsensitive_le {low s t : Str} (h : parseInsensitive low s = some t) : t.length ≤ s.length := by
  unfold parseInsensitive at h
  split at h
  · injection h with h; subst h; simp
  · simp at h

theorem parseInsensitive_lt {low s t : Str} (hl : low ≠ []) (h : parseInsensitive low s = some t) : t.length < s.length := by
  unfold parseInsensitive at h
  split at h
  · next hc =>
    injection h with h; subst h
    have : 0 < low.length := List.length_pos_iff.mpr hl
    have : 0 < s.length := List.length_pos_iff.mpr hc.1
    simp; omega
  · simp at h

theorem parseNumeric_lt {s t : Str} {n : Numeric} (h : parseNumeric s = some (n, t)) : t.length < s.length := by
  unfold parseNumeric at h
  have hs := parseSign_le s
  dsimp only at h
  split at h
  · next he =>
    simp only [Option.some.injEq, Prod.mk.injEq] at h
    rw [← h.2]
    have := parseInsensitive_lt (by simp) he
    omega
  · split at h
    · next he =>
      simp only [Option.some.injEq, Prod.mk.injEq] at h
      rw [← h.2]
      have := parseInsensitive_lt (by simp) he
      omega
    · have := parseUnsigned_lt h; omega

theorem map_ok {α β : Type} {x : Except Fault α} {f : α → β} {b : β} (h : x.map f = .ok b) : ∃ a, x = .ok a ∧ f a = b := by
  cases x with
  | error e => simp [Except.map] at h
  | ok a => exact ⟨a, rfl, by simpa [Except.map] using h⟩

theorem bind_ok' {α β : Type} {x : Except Fault α} {f : α → Except Fault β} {b : β} (h : x.bind f = .ok b) :
    ∃ a, x = .ok a ∧ f a = .ok b := by
  cases x with
  | error e => simp [Except.bind] at h
  | ok a => exact ⟨a, rfl, by simpa [Except.bind] using h⟩

/-- What a reader of literals does: it reads something, or it does not move. -/
def Moves (s : Str) (r : Option Lit × Str) : Prop :=
  (∃ v, r.1 = some v ∧ r.2.length < s.length) ∨ (r.1 = none ∧ r.2 = s)

theorem parseNumber_moves {s : Str} {r : Option Lit × Str} (h : parseNumber s = .ok r) : Moves s r := by
  unfold parseNumber at h
  split at h
  · injection h with h; subst h; exact Or.inr ⟨rfl, rfl⟩
  · next n t he =>
    have hl := parseNumeric_lt he
    cases t with
    | nil =>
      simp only at h
      obtain ⟨v, _, rfl⟩ := map_ok h
      exact Or.inl ⟨_, rfl, hl⟩
    | cons c u =>
      simp only [List.length_cons] at hl
      simp only at h
      split at h
      · obtain ⟨v, _, rfl⟩ := map_ok h; exact Or.inl ⟨_, rfl, by simp only; omega⟩
      · split at h
        · obtain ⟨v, _, rfl⟩ := map_ok h; exact Or.inl ⟨_, rfl, by simp only; omega⟩
        · split at h
          · obtain ⟨v, _, rfl⟩ := map_ok h; exact Or.inl ⟨_, rfl, by simp only; omega⟩
          · split at h
            · obtain ⟨v, _, rfl⟩ := map_ok h; exact Or.inl ⟨_, rfl, by simp only; omega⟩
            · obtain ⟨v, _, rfl⟩ := map_ok h; exact Or.inl ⟨_, rfl, by simp only [List.length_cons]; omega⟩

theorem stringLoop_lt : ∀ {s : Str} {r : Str × Str}, stringLoop s = .ok r → r.2.length < s.length := by
  intro s
  induction s using stringLoop.induct with
  | case1 => intro r h; simp [stringLoop] at h
  | case2 t ih =>
    intro r h
    rw [stringLoop] at h
    obtain ⟨v, hv, rfl⟩ := map_ok h
    have := ih hv
    simp; omega
  | case3 t hne =>
    intro r h
    rw [stringLoop] at h
    · injection h with h; subst h; simp
    · exact hne
  | case4 c t h1 h2 ih =>
    intro r h
    rw [stringLoop] at h
    · obtain ⟨v, hv, rfl⟩ := map_ok h
      have := ih hv
      simp; omega
    · exact h1
    · exact h2

theorem bind_eq {α β : Type} (x : Except Fault α) (f : α → Except Fault β) : (x >>= f) = x.bind f := rfl

theorem quoted_moves {p : Str → Except Fault (Lit × Str)} (hp : ∀ s r, p s = .ok r → r.2.length ≤ s.length) {s : Str}
    {r : Option Lit × Str} (h : quoted p s = .ok r) : ∃ v, r.1 = some v ∧ r.2.length < s.length := by
  unfold quoted at h
  simp only [bind_eq] at h
  obtain ⟨a, ha, h⟩ := bind_ok' h
  obtain ⟨b, hb, h⟩ := bind_ok' h
  obtain ⟨c, hc, h⟩ := bind_ok' h
  have := requireChar_len ha
  have := hp _ _ hb
  have := requireChar_len hc
  simp only [pure, Except.pure, Except.ok.injEq] at h
  subst h
  exact ⟨_, rfl, by simp only; omega⟩

theorem parseSeconds_le {s : Str} {r : (Nat × Str) × Str} (h : parseSeconds s = .ok (some r)) : r.2.length ≤ s.length := by
  unfold parseSeconds at h
  split at h
  · simp only [Except.ok.injEq, Option.some.injEq] at h; subst h; exact Nat.le_refl _
  · next he =>
    have h1 := parseChar_len he
    split at h
    · simp at h
    · next hi =>
      have h2 := parseInteger_lt hi
      split at h
      · simp only [Except.ok.injEq, Option.some.injEq] at h; subst h; simp only; omega
      · next hf =>
        have h3 := parseChar_len hf
        split at h
        · simp at h
        · simp only [Except.ok.injEq, Option.some.injEq] at h; subst h
          have := upTo_le Py.isDigit 7 ‹_›
          simp only; omega

theorem parseClock_le {s : Str} {r : (Nat × Nat × Nat × Str) × Str} (h : parseClock s = .ok (some r)) :
    r.2.length ≤ s.length := by
  unfold parseClock at h
  split at h
  · simp at h
  · next hi =>
    have h1 := parseInteger_lt hi
    split at h
    · simp at h
    · next hc =>
      have h2 := parseChar_len hc
      split at h
      · simp at h
      · next hm =>
        have h3 := parseInteger_lt hm
        obtain ⟨v, hv, h⟩ := map_ok h
        cases v with
        | none => simp at h
        | some v =>
          simp only [Option.map_some, Option.some.injEq] at h
          subst h
          have := parseSeconds_le hv
          simp only; omega

theorem bind_some {α β : Type} {x : Option α} {f : α → Option β} {b : β} (h : (x >>= f) = some b) :
    ∃ a, x = some a ∧ f a = some b := by
  cases x with
  | none => simp at h
  | some a => exact ⟨a, rfl, by simpa using h⟩

theorem parseCalendar_le {s : Str} {r : (Nat × Nat × Nat) × Str} (h : parseCalendar s = some r) : r.2.length ≤ s.length := by
  unfold parseCalendar at h
  obtain ⟨⟨y, s1⟩, h1, h⟩ := bind_some h
  obtain ⟨s2, h2, h⟩ := bind_some h
  obtain ⟨⟨m, s3⟩, h3, h⟩ := bind_some h
  obtain ⟨s4, h4, h⟩ := bind_some h
  obtain ⟨⟨d, s5⟩, h5, h⟩ := bind_some h
  obtain ⟨s6, h6, h⟩ := bind_some h
  have := exactly_le h1
  have := parseChar_len h2
  have := parseInteger_lt h3
  have := parseChar_len h4
  have := parseInteger_lt h5
  have := parseChar_len h6
  simp only [pure, Option.some.injEq] at h
  subst h
  simp only; omega

theorem parseDateTime_le (s : Str) (r : Lit × Str) (h : parseDateTime s = .ok r) : r.2.length ≤ s.length := by
  unfold parseDateTime at h
  split at h
  · simp at h
  · next hc =>
    have h1 := parseCalendar_le hc
    obtain ⟨v, hv, h⟩ := bind_ok' h
    cases v with
    | none => simp at h
    | some v =>
      have h2 := parseClock_le hv
      simp only at h
      split at h
      · simp at h
      · split at h
        · injection h with h; subst h; simp only at h1 ⊢; omega
        · simp at h

theorem parseTime_le (s : Str) (r : Lit × Str) (h : parseTime s = .ok r) : r.2.length ≤ s.length := by
  unfold parseTime at h
  obtain ⟨v, hv, h⟩ := bind_ok' h
  cases v with
  | none => simp at h
  | some v =>
    have h2 := parseClock_le hv
    simp only at h
    split at h
    · injection h with h; subst h; simp only; omega
    · simp at h

theorem requireHex_le {k : Nat} {s : Str} {r : Str × Str} (h : requireHex k s = .ok r) : r.2.length ≤ s.length := by
  unfold requireHex at h
  split at h
  · next r' he => injection h with h; subst h; exact exactly_le (a := r'.1) (by rw [he])
  · simp at h

theorem parseGuid_le (s : Str) (r : Lit × Str) (h : parseGuid s = .ok r) : r.2.length ≤ s.length := by
  unfold parseGuid at h
  simp only [bind_eq] at h
  obtain ⟨a, ha, h⟩ := bind_ok' h
  obtain ⟨b, hb, h⟩ := bind_ok' h
  obtain ⟨c, hc, h⟩ := bind_ok' h
  obtain ⟨d, hd, h⟩ := bind_ok' h
  obtain ⟨e, he, h⟩ := bind_ok' h
  obtain ⟨f, hf, h⟩ := bind_ok' h
  obtain ⟨g, hg, h⟩ := bind_ok' h
  have := requireHex_le ha
  have := requireChar_len hb
  have := requireHex_le hc
  have := requireChar_len hd
  have := requireHex_le he
  have := requireChar_len hf
  have := requireHex_le hg
  split at h
  · next hi =>
    have := parseChar_len hi
    obtain ⟨j, hj, h⟩ := bind_ok' h
    have := requireHex_le hj
    simp only [pure, Except.pure, Except.ok.injEq] at h
    subst h; simp only; omega
  · obtain ⟨j, hj, h⟩ := bind_ok' h
    have := requireHex_le hj
    simp only [pure, Except.pure, Except.ok.injEq] at h
    subst h; simp only; omega

theorem parseBinary_le (s : Str) (r : Lit × Str) (h : parseBinary s = .ok r) : r.2.length ≤ s.length := by
  unfold parseBinary at h
  obtain ⟨v, hv, h⟩ := map_ok h
  subst h
  exact dropWhile_le _ s

theorem parseOffset_moves {T : Tables} {s : Str} {r : Option Lit × Str} (h : parseOffset T s = .ok r) :
    ∃ v, r.1 = some v ∧ r.2.length < s.length := by
  unfold parseOffset at h
  simp only [bind_eq] at h
  obtain ⟨a, ha, h⟩ := bind_ok' h
  obtain ⟨b, hb, h⟩ := bind_ok' h
  have h1 := requireChar_len ha
  have h2 := requireChar_len hb
  have h3 := dropWhile_le (fun c => c != '\'') a
  split at h
  · simp only [pure, Except.pure, Except.ok.injEq] at h
    subst h
    exact ⟨_, rfl, by simp only; omega⟩
  · simp [throw, throwThe, MonadExceptOf.throw] at h

theorem namedLiteral_moves {T : Tables} {s name rest : Str} (hr : rest.length < s.length) {r : Option Lit × Str}
    (h : namedLiteral T s name rest = .ok r) : Moves s r := by
  have lift : ∀ {x : Except Fault (Option Lit × Str)}, (∀ r, x = .ok r → ∃ v, r.1 = some v ∧ r.2.length < rest.length) →
      x = .ok r → Moves s r := by
    intro x hx e
    obtain ⟨v, h1, h2⟩ := hx r e
    exact Or.inl ⟨v, h1, by omega⟩
  have one : ∀ {v : Lit}, (Except.ok (some v, rest) : Except Fault _) = .ok r → Moves s r := by
    intro v e
    injection e with e; subst e
    exact Or.inl ⟨v, rfl, hr⟩
  unfold namedLiteral at h
  cases hk : keyword name <;> rw [hk] at h <;> dsimp only at h
  · exact one h
  · exact one h
  · exact one h
  · exact lift (fun r e => parseOffset_moves e) h
  · exact lift (fun r e => quoted_moves parseDateTime_le e) h
  · exact lift (fun r e => quoted_moves parseTime_le e) h
  · exact lift (fun r e => quoted_moves parseBinary_le e) h
  · exact one h
  · exact one h
  · exact one h
  · exact one h
  · exact lift (fun r e => quoted_moves parseGuid_le e) h
  · injection h with h; subst h; exact Or.inr ⟨rfl, rfl⟩

theorem uriLiteral_moves {T : Tables} {s : Str} {r : Option Lit × Str} (h : uriLiteral T s = .ok r) : Moves s r := by
  unfold uriLiteral at h
  split at h
  · next hi => exact namedLiteral_moves (ident_lt hi) h
  · split at h
    · obtain ⟨v, hv, rfl⟩ := map_ok h
      have := stringLoop_lt hv
      exact Or.inl ⟨_, rfl, by simp; omega⟩
    · split at h
      · exact parseNumber_moves h
      · injection h with h; subst h; exact Or.inr ⟨rfl, rfl⟩
    · injection h with h; subst h; exact Or.inr ⟨rfl, rfl⟩

theorem nextOp_le (T : Tables) (s : Str) : (nextOp T s).2.length ≤ s.length := by
  have hw := wsp_le s
  unfold nextOp
  split
  · next t he => rw [he] at hw; simp at hw ⊢; omega
  · split
    · exact hw
    · next hi =>
      have := ident_lt hi
      split
      · split
        · exact hw
        · simp only; omega
      · exact hw

theorem skipChar_le (c : Char) (s : Str) : (skipChar c s).length ≤ s.length := by
  unfold skipChar
  cases h : parseChar c s with
  | none => exact Nat.le_refl _
  | some t => have := parseChar_len h; simp; omega

end Verif.OData
