import Verif.Lemmas.ODataFuel

/-! # The exceptions of the reader of OData expressions -/

namespace Verif.OData

open Verif

/-- Only `ValueError` and `TypeError`. -/
def Plain {α : Type} (x : Except Fault α) : Prop := ∀ e, x = .error e → e = .valueError ∨ e = .typeError

theorem plain_ok {α : Type} (a : α) : Plain (.ok a : Except Fault α) := by intro e h; cases h

theorem plain_value {α : Type} : Plain (.error .valueError : Except Fault α) := by intro e h; cases h; exact Or.inl rfl

theorem plain_type {α : Type} : Plain (.error .typeError : Except Fault α) := by intro e h; cases h; exact Or.inr rfl

theorem plain_map {α β : Type} {x : Except Fault α} {f : α → β} (h : Plain x) : Plain (x.map f) := by
  intro e he
  cases x with
  | error e' => cases he; exact h _ rfl
  | ok a => cases he

theorem plain_bind {α β : Type} {x : Except Fault α} {f : α → Except Fault β} (h : Plain x) (hf : ∀ a, Plain (f a)) :
    Plain (x.bind f) := by
  intro e he
  cases x with
  | error e' => cases he; exact h _ rfl
  | ok a => exact hf a e he

theorem plain_bindM {α β : Type} {x : Except Fault α} {f : α → Except Fault β} (h : Plain x) (hf : ∀ a, Plain (f a)) :
    Plain (x >>= f) := plain_bind h hf

theorem plain_ite {α : Type} {p : Prop} [Decidable p] {x y : Except Fault α} (hx : Plain x) (hy : Plain y) :
    Plain (if p then x else y) := by split <;> assumption

theorem plain_error {α β : Type} {x : Except Fault α} {e : Fault} (h : Plain x) (he : x = .error e) :
    Plain (.error e : Except Fault β) := by
  intro f hf
  cases hf
  exact h _ he

theorem plain_require (c : Char) (s : Str) : Plain (requireChar c s) := by
  unfold requireChar; split
  · exact plain_ok _
  · exact plain_value

theorem plain_setInteger (a b : Nat) (n : Numeric) : Plain (setInteger a b n) :=
  plain_ite plain_value (plain_ite plain_value (plain_ok _))

theorem plain_setSpecial (a b : Bool) : Plain (setSpecial a b) :=
  plain_ite (plain_ite plain_value (plain_ok _)) (plain_ok _)

theorem plain_setDouble (n : Numeric) : Plain (setDouble n) := by
  unfold setDouble; split
  · exact plain_map (plain_setSpecial _ _)
  · exact plain_ite plain_value (plain_ok _)

theorem plain_singleRange (x : Flt) : Plain (singleRange x) := by
  unfold singleRange; split
  · exact plain_ite plain_value (plain_ok _)
  · exact plain_ok _

theorem plain_setSingle (n : Numeric) : Plain (setSingle n) := by
  unfold setSingle; split
  · exact plain_map (plain_setSpecial _ _)
  · exact plain_ite (plain_ite plain_value (plain_ite plain_value (plain_singleRange _)))
      (plain_ite plain_value (plain_singleRange _))

theorem plain_setDecimal (n : Numeric) : Plain (setDecimal n) := plain_ite plain_value (plain_ok _)

theorem plain_number (s : Str) : Plain (parseNumber s) := by
  unfold parseNumber
  split
  · exact plain_ok _
  · split
    · exact plain_ite (plain_map (plain_setDouble _)) (plain_ite (plain_map (plain_setSingle _))
        (plain_ite (plain_map (plain_setDecimal _)) (plain_ite (plain_map (plain_setInteger _ _ _))
          (plain_map (plain_setInteger _ _ _)))))
    · exact plain_map (plain_setInteger _ _ _)

theorem plain_string (s : Str) : Plain (stringLoop s) := by
  fun_induction stringLoop s with
  | case1 => exact plain_value
  | case2 t ih => exact plain_map ih
  | case3 t h => exact plain_ok _
  | case4 c t h ih1 ih => exact plain_map ih

theorem plain_bytes : ∀ s : Str, Plain (bytesOf s)
  | [] => plain_ok _
  | [_] => plain_value
  | _ :: _ :: t => plain_map (plain_bytes t)

theorem plain_seconds (s : Str) : Plain (parseSeconds s) := by
  unfold parseSeconds
  split
  · exact plain_ok _
  · split
    · exact plain_ok _
    · split
      · exact plain_ok _
      · exact plain_ite plain_type (plain_ok _)

theorem plain_clock (s : Str) : Plain (parseClock s) := by
  unfold parseClock
  split
  · exact plain_ok _
  · split
    · exact plain_ok _
    · split
      · exact plain_ok _
      · exact plain_map (plain_seconds _)

theorem plain_dateTime (s : Str) : Plain (parseDateTime s) := by
  unfold parseDateTime
  split
  · exact plain_value
  · refine plain_bind (plain_clock _) fun r => ?_
    split
    · exact plain_value
    · split
      · exact plain_value
      · exact plain_ite (plain_ok _) plain_value

theorem plain_time (s : Str) : Plain (parseTime s) := by
  unfold parseTime
  refine plain_bind (plain_clock _) fun r => ?_
  split
  · exact plain_value
  · exact plain_ite (plain_ok _) plain_value

theorem plain_hex (k : Nat) (s : Str) : Plain (requireHex k s) := by
  unfold requireHex; split
  · exact plain_ok _
  · exact plain_value

theorem plain_guid (s : Str) : Plain (parseGuid s) := by
  unfold parseGuid
  refine plain_bindM (plain_hex _ _) fun _ => ?_
  refine plain_bindM (plain_require _ _) fun _ => ?_
  refine plain_bindM (plain_hex _ _) fun _ => ?_
  refine plain_bindM (plain_require _ _) fun _ => ?_
  refine plain_bindM (plain_hex _ _) fun _ => ?_
  refine plain_bindM (plain_require _ _) fun _ => ?_
  refine plain_bindM (plain_hex _ _) fun _ => ?_
  dsimp only
  split
  · exact plain_bindM (plain_hex _ _) fun _ => plain_ok _
  · exact plain_bindM (plain_hex _ _) fun _ => plain_ok _

theorem plain_quoted {p : Str → Except Fault (Lit × Str)} (hp : ∀ s, Plain (p s)) (s : Str) : Plain (quoted p s) := by
  unfold quoted
  refine plain_bindM (plain_require _ _) fun _ => ?_
  refine plain_bindM (hp _) fun _ => ?_
  exact plain_bindM (plain_require _ _) fun _ => plain_ok _

theorem plain_offset (T : Tables) (s : Str) : Plain (parseOffset T s) := by
  unfold parseOffset
  refine plain_bindM (plain_require _ _) fun _ => ?_
  refine plain_bindM (plain_require _ _) fun _ => ?_
  split
  · exact plain_ok _
  · exact plain_value

theorem plain_literal (T : Tables) (s : Str) : Plain (uriLiteral T s) := by
  unfold uriLiteral
  split
  · unfold namedLiteral
    split
    case h_4 => exact plain_offset _ _
    case h_5 => exact plain_quoted plain_dateTime _
    case h_6 => exact plain_quoted plain_time _
    case h_7 => exact plain_quoted (fun s => plain_map (plain_bytes _)) _
    case h_12 => exact plain_quoted plain_guid _
    all_goals exact plain_ok _
  · split
    · exact plain_map (plain_string _)
    · exact plain_ite (plain_number _) (plain_ok _)
    · exact plain_ok _

theorem plain_common (T : Tables) : ∀ n : Nat,
    (∀ ops (s : Str), 3 * s.length + 3 ≤ n → Plain (common T n ops s)) ∧
    (∀ s : Str, 3 * s.length + 1 ≤ n → Plain (term T n s)) ∧
    (∀ s : Str, 3 * s.length + 4 ≤ n → Plain (arguments T n s)) ∧
    (∀ op (s : Str), 3 * s.length + 1 ≤ n → Plain (castLike T n op s))
  | 0 => by
    refine ⟨?_, ?_, ?_, ?_⟩
    · intro ops s h; omega
    · intro s h; omega
    · intro s h; omega
    · intro op s h; omega
  | n + 1 => by
    obtain ⟨ihc, iht, iha, ihk⟩ := plain_common T n
    refine ⟨?_, ?_, ?_, ?_⟩
    · intro ops s hn
      have hw := wsp_le s
      simp only [common]
      have hp := iht (wsp s) (by omega)
      split
      · next e he => exact plain_error hp he
      · exact plain_ite (plain_ok _) plain_value
      · next o t ht =>
        rcases (moves T n).2.1 _ _ ht with ⟨hmv, _⟩ | ⟨_, hmv⟩
        · simp at hmv
        · simp only at hmv
          exact ihc _ t (by omega)
      · next e t ht =>
        rcases (moves T n).2.1 _ _ ht with ⟨hmv, _⟩ | ⟨_, hmv⟩
        · simp at hmv
        · simp only at hmv
          have hno := nextOp_le T t
          split
          · exact plain_ok _
          · next o u hu =>
            rw [hu] at hno
            simp only at hno
            exact ihc _ u (by omega)
    · intro s hn
      simp only [term]
      split
      · next e he => exact plain_error (plain_literal T s) he
      · exact plain_ok _
      · next t hl =>
        have ht : t = s := by
          rcases uriLiteral_moves hl with ⟨_, h1, _⟩ | ⟨_, h2⟩
          · simp at h1
          · exact h2
        subst ht
        split
        · next name u hi =>
          have hu := ident_lt hi
          have hw := wsp_le u
          split
          · exact plain_ite plain_value (plain_ok _)
          · split
            · exact plain_map (ihk _ _ (by omega))
            · split
              · exact plain_map (ihk _ _ (by omega))
              · split
                · next x hx =>
                  rw [hx] at hw
                  simp only [List.length_cons] at hw
                  split
                  · exact plain_value
                  · exact plain_map (iha _ (by omega))
                · exact plain_ok _
        · split
          · simp only [List.length_cons] at hn
            rename_i tl _
            have hz := ihc [] tl (by omega)
            split
            · next e he => exact plain_error hz he
            · exact plain_value
            · exact plain_ok _
          · exact plain_ok _
          · exact plain_ok _
    · intro s hn
      have hw := wsp_le s
      simp only [arguments]
      have hp := ihc [] (wsp s) (by omega)
      split
      · next e he => exact plain_error hp he
      · exact plain_value
      · next e t ht =>
        have hw2 := wsp_le t
        rcases (moves T n).1 _ _ _ ht with ⟨_, _, h2⟩ | ⟨h2, _⟩
        · simp only at h2
          split
          · next u hu =>
            rw [hu] at hw2
            simp only [List.length_cons] at hw2
            exact plain_map (iha _ (by omega))
          · exact plain_ok _
          · exact plain_value
        · simp at h2
    · intro op s hn
      have hw := wsp_le s
      simp only [castLike]
      split
      · next t ht =>
        rw [ht] at hw
        simp only [List.length_cons] at hw
        have hp := ihc [] t (by omega)
        split
        · next e he => exact plain_error hp he
        · exact plain_value
        · next e u hu =>
          have hw2 := wsp_le u
          rcases (moves T n).1 _ _ _ hu with ⟨_, _, h2⟩ | ⟨h2, _⟩
          · simp only at h2
            split
            · exact plain_ite (plain_ok _) plain_value
            · have h3 := skipChar_le ',' (wsp u)
              have h4 := wsp_le (skipChar ',' (wsp u))
              have hq := ihc [] (wsp (skipChar ',' (wsp u))) (by omega)
              split
              · next e he => exact plain_error hq he
              · exact plain_value
              · exact plain_ite (plain_ok _) plain_value
          · simp at h2
      · exact plain_value

theorem plain_parse (T : Tables) (s : Str) : Plain (parseExpr T s) := by
  unfold parseExpr
  have hp := (plain_common T (3 * s.length + 3)).1 [] s (by omega)
  split
  · next e he => exact plain_error hp he
  · exact plain_ok _
  · exact plain_value

end Verif.OData
