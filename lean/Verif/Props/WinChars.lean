import Verif.Model.WinChars
import Verif.Spec.WinChars

/-! # C24: windows character repair -/

namespace Verif.Props

open Verif Verif.Win Verif.Spec

/-- Bytes. -/
def IsBytes (l : List Nat) : Prop := ∀ b ∈ l, b < 256

/-- What the repair of a single byte looks like: nothing changes, or a reference to its windows-1252 character replaces a
byte above 0x7F. -/
def fixOk (a : Bool) (c : Nat) : Bool :=
  (fixByte a c = [c] && (!a || c < 0x80)) ||
  (0x80 ≤ c && hexRef? (fixByte a c) = some (win1252 c, []) && (fixByte a c).all (· < 0x80) &&
    (fixByte a c).length ≥ 4 && (fixByte a c).all (fun b => b ≠ 60) && ((fixByte a c).drop 1).all (fun b => b ≠ 38))

theorem fixOk_all : ∀ a : Bool, ∀ c : Fin 256, fixOk a c.val = true := by decide +kernel

theorem fix_cases (a : Bool) {c : Nat} (hc : c < 256) :
    (fixByte a c = [c] ∧ (a = true → c < 0x80)) ∨
    (0x80 ≤ c ∧ hexRef? (fixByte a c) = some (win1252 c, []) ∧ (∀ b ∈ fixByte a c, b < 0x80) ∧
      4 ≤ (fixByte a c).length ∧ (∀ b ∈ fixByte a c, b ≠ 60) ∧ (∀ b ∈ (fixByte a c).drop 1, b ≠ 38)) := by
  have := fixOk_all a ⟨c, hc⟩
  unfold fixOk at this
  simp only [Bool.or_eq_true, Bool.and_eq_true, decide_eq_true_eq, Bool.not_eq_true', List.all_eq_true] at this
  rcases this with ⟨h1, h2⟩ | ⟨⟨⟨⟨⟨h1, h2⟩, h3⟩, h4⟩, h5⟩, h6⟩
  · left
    refine ⟨h1, fun ha => ?_⟩
    rcases h2 with h2 | h2
    · rw [ha] at h2; cases h2
    · exact h2
  · exact Or.inr ⟨h1, h2, h3, h4, h5, h6⟩

theorem fixByte_low (a : Bool) {c : Nat} (hc : c < 0x80) : fixByte a c = [c] := by
  rcases fix_cases a (c := c) (by omega) with h | h
  · exact h.1
  · omega

theorem hexDigit?_low {b d : Nat} (h : hexDigit? b = some d) : b < 0x80 := by
  unfold hexDigit? at h
  split at h
  · omega
  · split at h
    · omega
    · split at h
      · omega
      · cases h

theorem readHex_append {l x : List Nat} : ∀ {seen : Bool} {acc v : Nat} {r : List Nat}, readHex seen acc l = some (v, r) →
    readHex seen acc (l ++ x) = some (v, r ++ x) := by
  induction l with
  | nil => intro seen acc v r h; cases h
  | cons b t ih =>
    intro seen acc v r h
    rw [List.cons_append]
    rw [readHex] at h ⊢
    cases hd : hexDigit? b with
    | some d => rw [hd] at h; exact ih h
    | none =>
      rw [hd] at h
      dsimp only at h ⊢
      split at h
      · rename_i hc
        rw [if_pos hc]
        injection h with h
        injection h with h1 h2
        rw [h1, h2]
      · cases h

theorem hexRef?_append {l x : List Nat} {v : Nat} {r : List Nat} (h : hexRef? l = some (v, r)) :
    hexRef? (l ++ x) = some (v, r ++ x) := by
  unfold hexRef? at h
  split at h
  · rename_i t
    exact readHex_append h
  · cases h

/-- Reading the digits of a reference commutes with the repair. -/
theorem readHex_fix (a : Bool) {t : List Nat} : IsBytes t → ∀ (seen : Bool) (acc : Nat),
    readHex seen acc (fixBytes a t) = (readHex seen acc t).map (fun p => (p.1, fixBytes a p.2)) := by
  induction t with
  | nil => intro _ seen acc; rfl
  | cons b t ih =>
    intro hb seen acc
    have hbt : IsBytes t := fun x hx => hb x (List.mem_cons_of_mem _ hx)
    have hb0 := hb b List.mem_cons_self
    have e : fixBytes a (b :: t) = fixByte a b ++ fixBytes a t := by simp [fixBytes]
    rw [e]
    rcases fix_cases a hb0 with ⟨h1, _⟩ | ⟨h1, h2, _⟩
    · rw [h1, List.singleton_append, readHex, readHex]
      cases hd : hexDigit? b with
      | some d => exact ih hbt _ _
      | none =>
        dsimp only
        split <;> rfl
    · have hn : hexDigit? b = none := by
        cases hd : hexDigit? b with
        | none => rfl
        | some d => have := hexDigit?_low hd; omega
      have e2 : readHex seen acc (b :: t) = none := by
        rw [readHex, hn]
        dsimp only
        rw [if_neg (by omega)]
      rw [e2]
      -- the reference begins with an ampersand, which is no digit
      unfold hexRef? at h2
      split at h2
      · rename_i u hu
        rw [hu]
        rfl
      · cases h2

theorem startsWith_low {l : List Nat} {c : Nat} {t : List Nat} (h : l = c :: t) : l ≠ [] := by rw [h]; simp

/-- Recognising a reference commutes with the repair. -/
theorem hexRef?_fix (a : Bool) {t : List Nat} (hb : IsBytes t) (hlow : ∀ b u, t = b :: u → b < 0x80) :
    hexRef? (fixBytes a t) = (hexRef? t).map (fun p => (p.1, fixBytes a p.2)) := by
  have step : ∀ {b : Nat} {u : List Nat}, b < 0x80 → fixBytes a (b :: u) = b :: fixBytes a u := by
    intro b u h
    simp [fixBytes, fixByte_low a h]
  have amp : ∀ {b : Nat} {u : List Nat}, b < 256 → 0x80 ≤ b → fixByte a b ≠ [b] → ∃ w, fixBytes a (b :: u) = 38 :: w := by
    intro b u h1 h2 h3
    rcases fix_cases a h1 with ⟨g, _⟩ | ⟨_, g, _⟩
    · exact absurd g h3
    · unfold hexRef? at g
      split at g
      · rename_i w hw
        exact ⟨35 :: 120 :: w ++ fixBytes a u, by simp [fixBytes, hw]⟩
      · cases g
  have same : ∀ {b : Nat} {u : List Nat}, fixByte a b = [b] → fixBytes a (b :: u) = b :: fixBytes a u := by
    intro b u h; simp [fixBytes, h]
  -- first byte
  match t, hb, hlow with
  | [], _, _ => rfl
  | b0 :: t, hb, hlow =>
    have h0 := hlow b0 t rfl
    rw [step h0]
    by_cases c0 : b0 = 38
    · subst c0
      match t, hb with
      | [], _ => rfl
      | b1 :: t, hb =>
        have hb1 : b1 < 256 := hb b1 (by simp)
        by_cases c1 : b1 = 35
        · subst c1
          rw [step (by decide)]
          match t, hb with
          | [], _ => rfl
          | b2 :: t, hb =>
            have hb2 : b2 < 256 := hb b2 (by simp)
            by_cases c2 : b2 = 120
            · subst c2
              rw [step (by decide)]
              exact readHex_fix a (fun x hx => hb x (by simp [hx])) false 0
            · have e : hexRef? (38 :: 35 :: b2 :: t) = none := by
                unfold hexRef?; split
                · rename_i heq; injection heq with _ heq; injection heq with _ heq; injection heq with heq _; exact absurd heq c2
                · rfl
              rw [e]
              by_cases s : fixByte a b2 = [b2]
              · rw [same s]
                unfold hexRef?; split
                · rename_i heq; injection heq with _ heq; injection heq with _ heq; injection heq with heq _; exact absurd heq c2
                · rfl
              · have : 0x80 ≤ b2 := by
                  apply Decidable.byContradiction
                  intro h; exact s (fixByte_low a (by omega))
                obtain ⟨w, hw⟩ := amp (u := t) hb2 this s
                rw [hw]; rfl
        · have e : hexRef? (38 :: b1 :: t) = none := by
            unfold hexRef?; split
            · rename_i heq; injection heq with _ heq; injection heq with heq _; exact absurd heq c1
            · rfl
          rw [e]
          by_cases s : fixByte a b1 = [b1]
          · rw [same s]
            unfold hexRef?; split
            · rename_i heq; injection heq with _ heq; injection heq with heq _; exact absurd heq c1
            · rfl
          · have : 0x80 ≤ b1 := by
              apply Decidable.byContradiction
              intro h; exact s (fixByte_low a (by omega))
            obtain ⟨w, hw⟩ := amp (u := t) hb1 this s
            rw [hw]; rfl
    · have e : ∀ u, hexRef? (b0 :: u) = none := by
        intro u
        unfold hexRef?; split
        · rename_i heq; injection heq with heq _; exact absurd heq c0
        · rfl
      rw [e, e]; rfl

theorem winText_ref {l r : List Nat} {v : Nat} (h : hexRef? l = some (v, r)) : winText l = v :: winText r := by
  cases l with
  | nil => cases h
  | cons b t =>
    rw [winText]
    split
    · rename_i v' r' h'
      rw [h] at h'
      injection h' with h'
      injection h' with h1 h2
      rw [h1, h2]
    · rename_i h'
      rw [h] at h'; cases h'

theorem winText_char {b : Nat} {t : List Nat} (h : hexRef? (b :: t) = none) : winText (b :: t) = win1252 b :: winText t := by
  rw [winText]
  split
  · rename_i v r h'
    rw [h] at h'; cases h'
  · rfl

theorem readHex_mem {t r : List Nat} : ∀ {seen : Bool} {acc v : Nat}, readHex seen acc t = some (v, r) → ∀ x ∈ r, x ∈ t := by
  induction t with
  | nil => intro seen acc v h; cases h
  | cons b t ih =>
    intro seen acc v h x hx
    rw [readHex] at h
    split at h
    · exact List.mem_cons_of_mem _ (ih h x hx)
    · split at h
      · injection h with h; injection h with _ h; subst h; exact List.mem_cons_of_mem _ hx
      · cases h

theorem hexRef?_bytes {t r : List Nat} {v : Nat} (hb : IsBytes t) (h : hexRef? t = some (v, r)) : IsBytes r := by
  unfold hexRef? at h
  split at h
  · intro x hx
    exact hb x (by simp [readHex_mem h x hx])
  · cases h

theorem hexRef?_first {b : Nat} {t : List Nat} (h : b ≠ 38) : hexRef? (b :: t) = none := by
  unfold hexRef?; split
  · rename_i heq; injection heq with heq _; exact absurd heq h
  · rfl

/-- **C24 (text).**  The repaired bytes denote the same text as the original read as windows-1252, in either mode. -/
theorem repair_preserves_text_bytes (a : Bool) (data : List Nat) (hb : IsBytes data) :
    winText (fixBytes a data) = winText data := by
  generalize hn : data.length = n
  induction n using Nat.strongRecOn generalizing data with
  | ind n ih =>
    match data, hb, hn with
    | [], _, _ => rfl
    | b :: t, hb, hn =>
      have hb0 := hb b List.mem_cons_self
      have hbt : IsBytes t := fun x hx => hb x (List.mem_cons_of_mem _ hx)
      have iht := ih t.length (by rw [← hn]; simp) t hbt rfl
      have e : fixBytes a (b :: t) = fixByte a b ++ fixBytes a t := by simp [fixBytes]
      rcases fix_cases a hb0 with ⟨h1, _⟩ | ⟨h1, h2, _⟩
      · by_cases hlow : b < 0x80
        · have hc := hexRef?_fix a hb (fun b' u he => by injection he with he _; omega)
          cases hr : hexRef? (b :: t) with
          | some p =>
            obtain ⟨v, r⟩ := p
            rw [hr] at hc
            rw [winText_ref hr, winText_ref hc]
            have hlt := hexRef?_lt hr
            rw [ih r.length (by rw [← hn]; exact hlt) r (hexRef?_bytes hb hr) rfl]
          | none =>
            rw [hr] at hc
            rw [e, h1, List.singleton_append] at hc ⊢
            rw [winText_char hr, winText_char hc, iht]
        · rw [e, h1, List.singleton_append, winText_char (hexRef?_first (by omega)), winText_char (hexRef?_first (by omega)), iht]
      · have h3 := hexRef?_append (x := fixBytes a t) h2
        rw [e, winText_ref h3, winText_char (hexRef?_first (by omega)), List.nil_append, iht]

theorem repair_preserves_text (a force : Bool) (data : List Nat) (hb : IsBytes data) :
    winText (fixFile a force data) = winText data := by
  unfold fixFile
  split
  · split
    · exact repair_preserves_text_bytes a data hb
    · rfl
  · rfl

theorem fixBytes_idem (a : Bool) {data : List Nat} (hb : IsBytes data) : fixBytes a (fixBytes a data) = fixBytes a data := by
  induction data with
  | nil => rfl
  | cons b t ih =>
    have hb0 := hb b List.mem_cons_self
    have hbt : IsBytes t := fun x hx => hb x (List.mem_cons_of_mem _ hx)
    have e : ∀ x y, fixBytes a (x ++ y) = fixBytes a x ++ fixBytes a y := by intro x y; simp [fixBytes]
    have e1 : fixBytes a (b :: t) = fixByte a b ++ fixBytes a t := by simp [fixBytes]
    rw [e1, e, ih hbt]
    congr 1
    rcases fix_cases a hb0 with ⟨h1, _⟩ | ⟨_, _, h3, _⟩
    · rw [h1]; simp [fixBytes, h1]
    · have : ∀ l : List Nat, (∀ b ∈ l, b < 0x80) → fixBytes a l = l := by
        intro l hl
        induction l with
        | nil => rfl
        | cons x l ihl =>
          have : fixBytes a (x :: l) = fixByte a x ++ fixBytes a l := by simp [fixBytes]
          rw [this, fixByte_low a (hl x List.mem_cons_self), ihl (fun y hy => hl y (List.mem_cons_of_mem _ hy))]
          rfl
      exact this _ h3

/-- **C24 (idempotence).**  Repairing a repaired file changes nothing. -/
theorem repair_idempotent (a force : Bool) (data : List Nat) (hb : IsBytes data) :
    fixFile a force (fixFile a force data) = fixFile a force data := by
  by_cases h1 : eligible force data = true
  · by_cases h2 : needsFix a data = true
    · have e : fixFile a force data = fixBytes a data := by unfold fixFile; rw [if_pos h1, if_pos h2]
      rw [e]
      unfold fixFile
      split
      · split
        · exact fixBytes_idem a hb
        · rfl
      · rfl
    · have e : fixFile a force data = data := by unfold fixFile; rw [if_pos h1, if_neg h2]
      rw [e, e]
  · have e : fixFile a force data = data := by unfold fixFile; rw [if_neg h1]
    rw [e, e]

/-- **C24 (ASCII).**  In ASCII mode, a file that is not skipped because of its first bytes contains only ASCII bytes
afterwards. -/
theorem repair_ascii (force : Bool) (data : List Nat) (hb : IsBytes data) (he : eligible force data = true) :
    ∀ b ∈ fixFile true force data, b < 0x80 := by
  unfold fixFile
  rw [if_pos he]
  by_cases h : needsFix true data = true
  · rw [if_pos h]
    intro b hbm
    unfold fixBytes at hbm
    rw [List.mem_flatMap] at hbm
    obtain ⟨c, hc, hbc⟩ := hbm
    rcases fix_cases true (hb c hc) with ⟨h1, h2⟩ | ⟨_, _, h3, _⟩
    · rw [h1, List.mem_singleton] at hbc
      rw [hbc]; exact h2 rfl
    · exact h3 b hbc
  · rw [if_neg h]
    intro b hbm
    apply Decidable.byContradiction
    intro hlt
    apply h
    unfold needsFix
    rw [List.any_eq_true]
    refine ⟨b, hbm, ?_⟩
    simp only [Bool.or_eq_true, Bool.and_eq_true, decide_eq_true_eq, true_and]
    omega

/-- **C24 (windows characters).**  In a file that is looked at, no byte for a windows-1252 graphic character in the control
range is left, in either mode. -/
theorem repair_no_windows_bytes (a force : Bool) (data : List Nat) (hb : IsBytes data) (he : eligible force data = true) :
    ∀ b ∈ fixFile a force data, win1252 b = b := by
  have key : ∀ c : Fin 256, ∀ a : Bool, (fixByte a c.val = [c.val] → win1252 c.val = c.val) ∧
      (0x80 ≤ c.val ∧ c.val ≤ 0x9F ∨ win1252 c.val = c.val) := by decide +kernel
  have low : ∀ b, b < 0x80 → win1252 b = b := by intro b h; unfold win1252; rw [if_neg (by omega)]
  unfold fixFile
  rw [if_pos he]
  by_cases h : needsFix a data = true
  · rw [if_pos h]
    intro b hbm
    unfold fixBytes at hbm
    rw [List.mem_flatMap] at hbm
    obtain ⟨c, hc, hbc⟩ := hbm
    rcases fix_cases a (hb c hc) with ⟨h1, h2⟩ | ⟨_, _, h3, _⟩
    · have hk := (key ⟨c, hb c hc⟩ a).1 h1
      rw [h1, List.mem_singleton] at hbc
      rw [hbc]; exact hk
    · exact low b (h3 b hbc)
  · rw [if_neg h]
    intro b hbm
    rcases (key ⟨b, hb b hbm⟩ a).2 with h1 | h1
    · exfalso
      apply h
      unfold needsFix
      rw [List.any_eq_true]
      refine ⟨b, hbm, ?_⟩
      simp only [Bool.or_eq_true, Bool.and_eq_true, decide_eq_true_eq]
      exact Or.inl h1
    · exact h1

/-! ## CDATA sections -/

/-- **C24 refuted inside CDATA sections.**  A quotation mark inside a CDATA section turns into the literal text of a
reference. -/
theorem repair_breaks_cdata :
    winTextCdata false (fixFile false false (bytes "<a><![CDATA[" ++ [0x93] ++ bytes "]]></a>")) ≠
    winTextCdata false (bytes "<a><![CDATA[" ++ [0x93] ++ bytes "]]></a>") := by decide +kernel

theorem readHex_hasCdata {t r : List Nat} : ∀ {seen : Bool} {acc v : Nat}, readHex seen acc t = some (v, r) →
    hasCdata t = false → hasCdata r = false := by
  induction t with
  | nil => intro seen acc v h; cases h
  | cons b t ih =>
    intro seen acc v h hc
    rw [hasCdata, Bool.or_eq_false_iff] at hc
    rw [readHex] at h
    split at h
    · exact ih h hc.2
    · split at h
      · injection h with h; injection h with _ h; subst h; exact hc.2
      · cases h

theorem hexRef?_hasCdata {t r : List Nat} {v : Nat} (h : hexRef? t = some (v, r)) (hc : hasCdata t = false) :
    hasCdata r = false := by
  unfold hexRef? at h
  split at h
  · simp only [hasCdata, Bool.or_eq_false_iff] at hc
    exact readHex_hasCdata h hc.2.2.2
  · cases h

/-- Without CDATA sections the two readings agree. -/
theorem winTextCdata_plain {l : List Nat} (h : hasCdata l = false) : winTextCdata false l = winText l := by
  generalize hn : l.length = n
  induction n using Nat.strongRecOn generalizing l with
  | ind n ih =>
    match l, h, hn with
    | [], _, _ => rw [winTextCdata, winText]
    | b :: t, h, hn =>
      have h' := h
      rw [hasCdata, Bool.or_eq_false_iff] at h
      rw [winTextCdata, if_neg (by decide), if_neg (by rw [h.1]; decide)]
      split
      · rename_i v r hr
        rw [winText_ref hr, ih r.length (by rw [← hn]; exact hexRef?_lt hr) (hexRef?_hasCdata hr h') rfl]
      · rename_i hr
        rw [winText_char hr, ih t.length (by rw [← hn]; simp) h.2 rfl]

theorem startsCdata_low {l : List Nat} (h : startsCdata l = true) :
    ∃ t, l = [60, 33, 91, 67, 68, 65, 84, 65, 91] ++ t := by
  unfold startsCdata at h
  split at h
  · exact ⟨_, rfl⟩
  · cases h

/-- A prefix of low bytes that contains no ampersand is in the repaired file iff it is in the original. -/
theorem prefix_fix (a : Bool) (p : List Nat) (hp : ∀ b ∈ p, b < 0x80 ∧ b ≠ 38) : ∀ {l x : List Nat}, IsBytes l →
    fixBytes a l = p ++ x → ∃ y, l = p ++ y := by
  induction p with
  | nil => intro l x _ _; exact ⟨l, rfl⟩
  | cons b p ih =>
    intro l x hl he
    cases l with
    | nil => cases he
    | cons c t =>
      have hb := hp b List.mem_cons_self
      have e1 : fixBytes a (c :: t) = fixByte a c ++ fixBytes a t := by simp [fixBytes]
      rw [e1] at he
      rcases fix_cases a (hl c List.mem_cons_self) with ⟨h1, _⟩ | ⟨_, h2, _⟩
      · rw [h1, List.singleton_append, List.cons_append] at he
        injection he with he1 he2
        obtain ⟨y, hy⟩ := ih (fun b hb => hp b (List.mem_cons_of_mem _ hb)) (fun b hb => hl b (List.mem_cons_of_mem _ hb)) he2
        exact ⟨y, by rw [he1, hy]; rfl⟩
      · unfold hexRef? at h2
        split at h2
        · rename_i u hu
          rw [hu] at he
          injection he with he1 _
          exact absurd he1.symm hb.2
        · cases h2

theorem hasCdata_fix (a : Bool) {l : List Nat} (hl : IsBytes l) (h : hasCdata l = false) : hasCdata (fixBytes a l) = false := by
  induction l with
  | nil => rfl
  | cons c t ih =>
    have hlt : IsBytes t := fun b hb => hl b (List.mem_cons_of_mem _ hb)
    rw [hasCdata, Bool.or_eq_false_iff] at h
    have iht := ih hlt h.2
    have e1 : fixBytes a (c :: t) = fixByte a c ++ fixBytes a t := by simp [fixBytes]
    rcases fix_cases a (hl c List.mem_cons_self) with ⟨h1, _⟩ | ⟨_, _, _, _, h5, _⟩
    · have e2 : fixBytes a (c :: t) = c :: fixBytes a t := by rw [e1, h1]; rfl
      rw [e2, hasCdata, iht, Bool.or_false]
      cases hs : startsCdata (c :: fixBytes a t) with
      | false => rfl
      | true =>
        obtain ⟨x, hx⟩ := startsCdata_low hs
        rw [← e2] at hx
        obtain ⟨y, hy⟩ := prefix_fix a _ (by decide) hl hx
        rw [hy] at h
        exact absurd h.1 (by simp [startsCdata])
    · have : ∀ p : List Nat, (∀ b ∈ p, b ≠ 60) → ∀ x, hasCdata x = false → hasCdata (p ++ x) = false := by
        intro p
        induction p with
        | nil => intro _ x hx; exact hx
        | cons b p ihp =>
          intro hp x hx
          rw [List.cons_append, hasCdata, ihp (fun y hy => hp y (List.mem_cons_of_mem _ hy)) x hx, Bool.or_false]
          cases hs : startsCdata (b :: (p ++ x)) with
          | false => rfl
          | true =>
            obtain ⟨z, hz⟩ := startsCdata_low hs
            injection hz with hz _
            exact absurd hz (hp b List.mem_cons_self)
      rw [e1]
      exact this _ h5 _ iht

/-- **C24 (text, with CDATA sections recognised).**  For files without CDATA sections the repaired file denotes the same
characters. -/
theorem repair_preserves_text_partial (a force : Bool) (data : List Nat) (hb : IsBytes data) (hc : hasCdata data = false) :
    winTextCdata false (fixFile a force data) = winTextCdata false data := by
  have hf : hasCdata (fixFile a force data) = false := by
    unfold fixFile
    split
    · split
      · exact hasCdata_fix a hb hc
      · exact hc
    · exact hc
  rw [winTextCdata_plain hf, winTextCdata_plain hc, repair_preserves_text a force data hb]

/-- A small file: curly quotes, an accented letter and an existing reference. -/
example : fixFile true false (bytes "<a>" ++ [0x93, 0xE9] ++ bytes "&#x41;</a>") =
    bytes "<a>&#x201C;&#xE9;&#x41;</a>" ∧
    winText (bytes "<a>" ++ [0x93, 0xE9] ++ bytes "&#x41;</a>") = bytes "<a>" ++ [0x201C, 0xE9, 0x41] ++ bytes "</a>" := by
  decide +kernel

end Verif.Props
