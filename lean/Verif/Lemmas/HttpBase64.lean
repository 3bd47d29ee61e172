import Verif.Model.HttpAuth
import Verif.Lemmas.HttpWords

/-!
# Base 64 and the words of an `Authorization` header
-/

namespace Verif.Http.Auth

open Verif Verif.Http

theorem b64Char_val : ∀ n, n < 64 → b64Val (b64Char n) = some n ∧ b64Char n ≠ '=' ∧
    (isTok (b64Char n) = true ∨ b64Char n = '/') := by
  decide +kernel

theorem b64Loop_char {quad left bits n : Nat} (hn : n < 64) (t : Str) :
    b64Loop quad left bits (b64Char n :: t) =
      if 8 ≤ bits + 6 then
        (b64Loop ((quad + 1) % 4) ((left * 64 + n) % 2 ^ (bits + 6 - 8)) (bits + 6 - 8) t).map
          (Char.ofNat ((left * 64 + n) / 2 ^ (bits + 6 - 8) % 256) :: ·)
      else b64Loop ((quad + 1) % 4) (left * 64 + n) (bits + 6) t := by
  rw [b64Loop, if_neg (b64Char_val n hn).2.1, (b64Char_val n hn).1]

theorem ofNat_of {a : Char} {n : Nat} (h : n = a.toNat) : Char.ofNat n = a := by subst h; exact Char.ofNat_toNat a

theorem b64Loop_three {a b c : Char} (ha : a.toNat < 256) (hb : b.toNat < 256) (hc : c.toNat < 256) (t : Str) :
    b64Loop 0 0 0 (b64Char (a.toNat / 4) :: b64Char (a.toNat % 4 * 16 + b.toNat / 16) ::
      b64Char (b.toNat % 16 * 4 + c.toNat / 64) :: b64Char (c.toNat % 64) :: t) =
    (b64Loop 0 0 0 t).map (a :: b :: c :: ·) := by
  rw [b64Loop_char (by omega), if_neg (by omega), b64Loop_char (by omega), if_pos (by omega), b64Loop_char (by omega),
    if_pos (by omega), b64Loop_char (by omega), if_pos (by omega)]
  have e1 : (0 * 64 + a.toNat / 4) * 64 + (a.toNat % 4 * 16 + b.toNat / 16) = a.toNat * 16 + b.toNat / 16 := by omega
  rw [e1]
  have p4 : 2 ^ (0 + 6 + 6 - 8) = 16 := by decide
  have p2 : 2 ^ (0 + 6 + 6 - 8 + 6 - 8) = 4 := by decide
  have p0 : 2 ^ (0 + 6 + 6 - 8 + 6 - 8 + 6 - 8) = 1 := by decide
  rw [p4, p2, p0]
  have q : ((((0 + 1) % 4 + 1) % 4 + 1) % 4 + 1) % 4 = 0 := by decide
  have z : 0 + 6 + 6 - 8 + 6 - 8 + 6 - 8 = 0 := by decide
  rw [q, z]
  have l2 : (a.toNat * 16 + b.toNat / 16) % 16 * 64 + (b.toNat % 16 * 4 + c.toNat / 64) = b.toNat * 4 + c.toNat / 64 := by omega
  rw [l2]
  have l3 : (b.toNat * 4 + c.toNat / 64) % 4 * 64 + c.toNat % 64 = c.toNat := by omega
  rw [l3, Nat.mod_one, Nat.div_one]
  rw [ofNat_of (a := a) (by omega), ofNat_of (a := b) (by omega), ofNat_of (a := c) (by omega)]
  cases b64Loop 0 0 0 t <;> rfl

theorem b64_two {a b : Char} (ha : a.toNat < 256) (hb : b.toNat < 256) : b64decode (b64encode [a, b]) = .ok [a, b] := by
  unfold b64decode b64encode
  rw [b64Loop_char (by omega), if_neg (by omega), b64Loop_char (by omega), if_pos (by omega), b64Loop_char (by omega),
    if_pos (by omega)]
  have e1 : (0 * 64 + a.toNat / 4) * 64 + (a.toNat % 4 * 16 + b.toNat / 16) = a.toNat * 16 + b.toNat / 16 := by omega
  rw [e1]
  have p4 : 2 ^ (0 + 6 + 6 - 8) = 16 := by decide
  have p2 : 2 ^ (0 + 6 + 6 - 8 + 6 - 8) = 4 := by decide
  rw [p4, p2]
  have l2 : (a.toNat * 16 + b.toNat / 16) % 16 * 64 + (b.toNat % 16 * 4) = b.toNat * 4 := by omega
  rw [l2]
  rw [ofNat_of (a := a) (by omega), ofNat_of (a := b) (by omega)]
  rw [b64Loop, if_pos rfl, if_neg (by decide)]
  rfl

theorem b64_one {a : Char} (ha : a.toNat < 256) : b64decode (b64encode [a]) = .ok [a] := by
  unfold b64decode b64encode
  rw [b64Loop_char (by omega), if_neg (by omega), b64Loop_char (by omega), if_pos (by omega)]
  have e1 : (0 * 64 + a.toNat / 4) * 64 + (a.toNat % 4 * 16) = a.toNat * 16 := by omega
  rw [e1]
  have p4 : 2 ^ (0 + 6 + 6 - 8) = 16 := by decide
  rw [p4, ofNat_of (a := a) (by omega)]
  rw [b64Loop, if_pos rfl, if_neg (by decide)]
  rfl

theorem b64_round (s : Str) (h : ∀ c ∈ s, c.toNat < 256) : b64decode (b64encode s) = .ok s := by
  fun_induction b64encode s with
  | case1 => rfl
  | case2 a => exact b64_one (h a (by simp))
  | case3 a b => exact b64_two (h a (by simp)) (h b (by simp))
  | case4 a b c t ih =>
    unfold b64decode at ih ⊢
    rw [b64Loop_three (h a (by simp)) (h b (by simp)) (h c (by simp)), ih (fun d hd => h d (by simp [hd]))]
    rfl

theorem b64_chars (s : Str) (h : ∀ c ∈ s, c.toNat < 256) : ∀ c ∈ b64encode s, isTok c = true ∨ c = '/' ∨ c = '=' := by
  have k : ∀ n, n < 64 → isTok (b64Char n) = true ∨ b64Char n = '/' ∨ b64Char n = '=' :=
    fun n hn => (b64Char_val n hn).2.2.imp_right .inl
  fun_induction b64encode s with
  | case1 => intro c hc; cases hc
  | case2 a =>
    have := h a (by simp)
    intro c hc
    simp only [List.mem_cons, List.not_mem_nil, or_false] at hc
    rcases hc with e | e | e | e <;> subst e
    · exact k _ (by omega)
    · exact k _ (by omega)
    · exact .inr (.inr rfl)
    · exact .inr (.inr rfl)
  | case3 a b =>
    have := h a (by simp)
    have := h b (by simp)
    intro c hc
    simp only [List.mem_cons, List.not_mem_nil, or_false] at hc
    rcases hc with e | e | e | e <;> subst e
    · exact k _ (by omega)
    · exact k _ (by omega)
    · exact k _ (by omega)
    · exact .inr (.inr rfl)
  | case4 a b d t ih =>
    have := h a (by simp)
    have := h b (by simp)
    have := h d (by simp)
    intro c hc
    simp only [List.mem_cons] at hc
    rcases hc with e | e | e | e | e
    · subst e; exact k _ (by omega)
    · subst e; exact k _ (by omega)
    · subst e; exact k _ (by omega)
    · subst e; exact k _ (by omega)
    · exact ih (fun x hx => h x (by simp [hx])) c e

theorem takeWhile_all {p : Char → Bool} (l : Str) : (l.takeWhile p).all p = true := by
  induction l with
  | nil => rfl
  | cons a l ih =>
    rw [List.takeWhile_cons]
    split
    · rename_i h; simp only [List.all_cons, h, Bool.true_and]; exact ih
    · rfl

theorem dropWhile_head {p : Char → Bool} (l : Str) : ∀ c u, l.dropWhile p = c :: u → p c = false := by
  induction l with
  | nil => intro c u h; cases h
  | cons a l ih =>
    intro c u h
    rw [List.dropWhile_cons] at h
    split at h
    · exact ih c u h
    · rename_i hp
      injection h with h1 h2
      subst h1
      exact Bool.not_eq_true _ ▸ hp

/-- Text of token characters, slashes and equals signs falls into words that make it up. -/
theorem words_b64 (n : Nat) : ∀ s : Str, s.length ≤ n → (∀ c ∈ s, isTok c = true ∨ c = '/' ∨ c = '=') →
    ∃ l : List Str, words true s = some (.ok (l.map some)) ∧ l.flatten = s := by
  induction n with
  | zero =>
    intro s hs _
    cases s with
    | nil => exact ⟨[], words_nil true, rfl⟩
    | cons c t => simp at hs
  | succ n ih =>
    intro s hs h
    cases s with
    | nil => exact ⟨[], words_nil true, rfl⟩
    | cons c t =>
      rcases h c (by simp) with hc | hc
      · have he : c :: t = (c :: t).takeWhile isTok ++ (c :: t).dropWhile isTok := List.takeWhile_append_dropWhile.symm
        have hne : (c :: t).takeWhile isTok ≠ [] := by rw [List.takeWhile_cons, if_pos hc]; exact List.cons_ne_nil _ _
        have hlt : ((c :: t).dropWhile isTok).length < (c :: t).length := dropWhile_lt hne
        obtain ⟨l, h1, h2⟩ := ih ((c :: t).dropWhile isTok) (by omega)
          (fun d hd => h d ((List.dropWhile_sublist isTok).subset hd))
        refine ⟨(c :: t).takeWhile isTok :: l, ?_, ?_⟩
        · have := words_token (ign := true) (t := (c :: t).takeWhile isTok) ⟨hne, takeWhile_all _⟩ (dropWhile_head _) h1
          rw [← he] at this
          exact this
        · rw [List.flatten_cons, h2, ← he]
      · obtain ⟨l, h1, h2⟩ := ih t (by simp at hs; omega) (fun d hd => h d (by simp [hd]))
        refine ⟨[c] :: l, ?_, by rw [List.flatten_cons, h2]; rfl⟩
        rcases hc with e | e
        · subst e; exact words_sep (by decide) (by decide) (by decide) (by decide) h1
        · subst e; exact words_sep (by decide) (by decide) (by decide) (by decide) h1

theorem splitColon_ne (s : Str) : splitColon s ≠ [] := by
  cases s with
  | nil => exact List.cons_ne_nil _ _
  | cons c t =>
    rw [splitColon]
    cases splitColon t with
    | nil => exact List.cons_ne_nil _ _
    | cons a b => simp only; split <;> exact List.cons_ne_nil _ _

theorem splitColon_plain {s : Str} (h : ':' ∉ s) : splitColon s = [s] := by
  induction s with
  | nil => rfl
  | cons c t ih =>
    rw [splitColon, ih (fun e => h (List.mem_cons_of_mem _ e))]
    simp only
    rw [if_neg]
    intro e
    subst e
    exact h (List.mem_cons_self ..)

theorem splitColon_append {u : Str} (h : ':' ∉ u) (p : Str) : splitColon (u ++ ':' :: p) = u :: splitColon p := by
  induction u with
  | nil =>
    show splitColon (':' :: p) = _
    rw [splitColon]
    cases hp : splitColon p with
    | nil => exact absurd hp (splitColon_ne p)
    | cons a b => simp only; rw [if_pos trivial]
  | cons c t ih =>
    show splitColon (c :: (t ++ ':' :: p)) = _
    rw [splitColon, ih (fun e => h (List.mem_cons_of_mem _ e))]
    simp only
    rw [if_neg]
    intro e
    subst e
    exact h (List.mem_cons_self ..)

/-- Credentials are read from their text as far as the colons in them allow. -/
theorem fromString_str {u p : Str} (hu : ∀ c ∈ u, c.toNat < 256) (hp : ∀ c ∈ p, c.toNat < 256) (c : Credentials)
    (h1 : c.userid = some u) (h2 : c.password = some p) :
    Credentials.fromString c.str =
      match splitColon (u ++ ':' :: p) with
      | [u, p] => .ok { userid := some u, password := some p }
      | _ => .error (.fault .nameError) := by
  have hall : ∀ d ∈ u ++ ':' :: p, d.toNat < 256 := by
    intro d hd
    rw [List.mem_append, List.mem_cons] at hd
    rcases hd with hd | hd | hd
    · exact hu d hd
    · subst hd; decide
    · exact hp d hd
  obtain ⟨l, hl1, hl2⟩ := words_b64 _ _ (Nat.le_refl _) (b64_chars _ hall)
  have hr := b64_round _ hall
  have hne : b64encode (u ++ ':' :: p) ≠ [] := by
    cases hx : u ++ ':' :: p with
    | nil => simp at hx
    | cons a t =>
      cases t with
      | nil => exact List.cons_ne_nil _ _
      | cons b t => cases t <;> exact List.cons_ne_nil _ _
  have hlne : l ≠ [] := by intro e; rw [e] at hl2; exact hne hl2.symm
  have hw : words true c.str = some (.ok (some "Basic".toList :: l.map some)) := by
    have hs : c.str = "Basic".toList ++ ' ' :: b64encode (u ++ ':' :: p) := by
      unfold Credentials.str; rw [h1, h2]; rfl
    rw [hs]
    refine words_token ⟨by decide, by decide +kernel⟩ ?_ ?_
    · intro d v e; injection e with e _; subst e; decide
    · cases hx : b64encode (u ++ ':' :: p) with
      | nil => exact absurd hx hne
      | cons a t =>
        have ha := b64_chars _ hall a (by rw [hx]; exact List.mem_cons_self ..)
        rw [hx] at hl1
        have h3 : isSp a = false ∧ a ≠ '\r' := by
          rcases ha with h | h | h
          · exact ⟨(tok_not_sp h).1, (tok_not_sp h).2.2.2⟩
          · subst h; decide
          · subst h; decide
        exact words_space h3.1 h3.2 hl1
  unfold Credentials.fromString
  rw [hw]
  have ht : requireToken (some "Basic".toList :: l.map some) = .ok ("Basic".toList, l.map some) := rfl
  simp only [ht]
  have hb : Py.lower "Basic".toList = "basic".toList := by decide +kernel
  rw [if_pos hb]
  have hpr : parseRemainder (l.map some) = .ok (b64encode (u ++ ':' :: p), []) := by
    unfold parseRemainder
    cases l with
    | nil => exact absurd rfl hlne
    | cons a l =>
      rw [if_neg (by simp [cWord]), if_neg (by simp)]
      rw [List.filterMap_map]
      show Except.ok ((List.filterMap (fun x => some x) (a :: l)).flatten, _) = _
      rw [List.filterMap_some, hl2]
  simp only [hpr]
  unfold setBasic
  simp only [hr]
  split
  · rename_i e1
    split at e1
    · cases e1
    · rename_i hh
      injection e1 with e1
      subst e1
      split
      · rename_i hh2; exact absurd hh2 (hh _ _)
      · rfl
  · rename_i cc e1
    split at e1
    · rename_i hh
      injection e1 with e1
      subst e1
      rw [hh]
      rfl
    · cases e1

end Verif.Http.Auth
