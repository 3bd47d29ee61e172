import Verif.Model.Sniff
import Verif.Props.InputWrapper

/-!
# What the body of a request is: properties
-/

namespace Verif.Props.Sniff

open Verif Verif.InputWrapper Verif.Sniff Verif.Props.InputWrapper

/-- A byte that is neither zero nor part of the marks of UTF-16 and UTF-32. -/
def Plain (c : Char) : Prop := c.toNat ≠ 0 ∧ c.toNat ≠ 254 ∧ c.toNat ≠ 255

theorem plain_key {c : Char} (h : Plain c) : keyOf c = .star := by
  have e : ∀ n, n < 256 → (byte n).toNat = n := by decide +kernel
  have h0 : c ≠ byte 0 := fun he => h.1 (by rw [he]; exact e 0 (by omega))
  have h1 : c ≠ byte 254 := fun he => h.2.1 (by rw [he]; exact e 254 (by omega))
  have h2 : c ≠ byte 255 := fun he => h.2.2 (by rw [he]; exact e 255 (by omega))
  simp [keyOf, h0, h1, h2]

theorem key_zero : keyOf (byte 0) = .zero := by decide
theorem key_fe : keyOf (byte 254) = .fe := by decide
theorem key_ff : keyOf (byte 255) = .ff := by decide

/-- C367: the encodings of texts without a mark are found from their first four bytes: UTF-8 if
none of them is special, UTF-16 for two characters of Latin-1 and UTF-32 for one, in both orders of
bytes; and UTF-8 and UTF-32 with a mark. -/
theorem detect_plain :
    (∀ t : Str, (∀ c ∈ t.take 4, Plain c) → t.take 3 ≠ [byte 239, byte 187, byte 191] →
      detectEncoding t = some .utf8) ∧
    (∀ t : Str, detectEncoding ([byte 239, byte 187, byte 191] ++ t) = some .utf8sig) ∧
    (∀ (c d : Char) (t : Str), Plain c → Plain d →
      detectEncoding (byte 0 :: c :: byte 0 :: d :: t) = some .utf16be ∧
      detectEncoding (c :: byte 0 :: d :: byte 0 :: t) = some .utf16le ∧
      detectEncoding (byte 0 :: byte 0 :: byte 0 :: c :: t) = some .utf32be ∧
      detectEncoding (c :: byte 0 :: byte 0 :: byte 0 :: t) = some .utf32le ∧
      detectEncoding (byte 0 :: byte 0 :: byte 254 :: byte 255 :: t) = some .utf32be ∧
      detectEncoding (byte 255 :: byte 254 :: byte 0 :: byte 0 :: t) = some .utf32le) := by
  have hz : byte 0 ≠ byte 239 ∧ byte 0 ≠ byte 187 ∧ byte 0 ≠ byte 191 ∧ byte 255 ≠ byte 239 := by decide
  refine ⟨?_, ?_, ?_⟩
  · intro t ht hb
    have key : ∀ i, i < 4 → keyAt t i = .star := by
      intro i hi
      unfold keyAt
      split
      · rfl
      · rename_i c hc
        apply plain_key
        apply ht
        apply List.mem_of_getElem? (i := i)
        rw [List.getElem?_take, if_pos hi]
        exact hc
    unfold detectEncoding
    rw [if_neg hb, key 0 (by omega), key 1 (by omega), key 2 (by omega), key 3 (by omega)]
    rfl
  · intro t
    rfl
  · intro c d t hc hd
    have k1 := plain_key hc
    have k2 := plain_key hd
    refine ⟨?_, ?_, ?_, ?_, ?_, ?_⟩ <;> unfold detectEncoding <;>
      rw [if_neg (by simp [hz])] <;>
      simp [keyAt, k1, k2, key_zero, key_fe, key_ff, magicTable]

/-- C368, refuted for all texts in UTF-16 with a mark that start with a character of Latin-1: their
encoding is not found. -/
theorem detect_mark_refuted (c : Char) (t : Str) (hc : Plain c) :
    detectEncoding (byte 254 :: byte 255 :: byte 0 :: c :: t) = none ∧
    detectEncoding (byte 255 :: byte 254 :: c :: byte 0 :: t) = none := by
  have hz : byte 254 ≠ byte 239 ∧ byte 255 ≠ byte 239 := by decide
  have k1 := plain_key hc
  constructor <;> unfold detectEncoding <;> rw [if_neg (by simp [hz])] <;>
    simp [keyAt, k1, key_zero, key_fe, key_ff, magicTable]

theorem skip_spec {size k : Nat} {all : Str} {length : Option Nat} : ∀ (f : Nat) (w : Wrapper),
    Used size k all length w → ((body all length).drop (tell w)).length < f →
    ∀ pre rest : Str, (body all length).drop (tell w) = pre ++ rest → (∀ c ∈ pre, c.toNat < 0x20) →
    (∀ c, rest.head? = some c → 0x20 ≤ c.toNat) →
    (skipControls f w).1 = rest.head? ∧ Used size k all length (skipControls f w).2 ∧
    tell (skipControls f w).2 = tell w + pre.length + (rest.take 1).length := by
  intro f
  induction f with
  | zero => intro w _ h; omega
  | succ f ih =>
    intro w hw hf pre rest he hpre hrest
    obtain ⟨r1, r2, r3, r4⟩ := input_read hw 1
    have hu : Used size k all length (read w 1).2 := Used.afterRead 1 hw
    rw [skipControls.eq_def]
    simp only
    rcases hr : InputWrapper.read w 1 with ⟨d, w'⟩
    rw [hr] at r1 r2 r3 r4 hu
    simp only at r1 r2 r3 r4 hu
    cases d with
    | nil =>
      simp only
      have hend : tell w = (body all length).length := by
        rcases r3.1 rfl with h | h
        · cases h
        · exact h
      have hnil : pre ++ rest = [] := by rw [← he, hend]; simp
      obtain ⟨hp, hq⟩ := List.append_eq_nil_iff.1 hnil
      subst hp; subst hq
      exact ⟨rfl, hu, by simpa using r4⟩
    | cons c cs =>
      have hcs : cs = [] := by simpa using r2
      subst hcs
      simp only
      obtain ⟨t, ht⟩ := r1
      rw [he] at ht
      have hdrop : (body all length).drop (tell w') = t := by
        rw [r4, ← List.drop_drop, he, ← ht]; simp
      have hlen : ((body all length).drop (tell w)).length = t.length + 1 := by
        rw [he, ← ht]; simp
      cases pre with
      | nil =>
        simp only [List.nil_append, List.singleton_append] at ht
        subst ht
        have := hrest c rfl
        rw [if_neg (by omega)]
        exact ⟨rfl, hu, by simpa using r4⟩
      | cons p ps =>
        simp only [List.cons_append, List.nil_append, List.cons.injEq] at ht
        obtain ⟨h1, h2⟩ := ht
        subst h1
        rw [if_pos (hpre c (by simp))]
        obtain ⟨e1, e2, e3⟩ := ih w' hu (by rw [hdrop]; omega) ps rest (by rw [hdrop, h2])
          (fun x hx => hpre x (by simp [hx])) hrest
        refine ⟨e1, e2, ?_⟩
        rw [e3, r4]
        simp
        omega

/-- C369: a body without white space but line feeds, tabs and the like before its first character is
XML if that is `<`, and JSON if it is `{` or `[` (or missing); whatever it is, all of the body is then
read from its start, if no more than `k` bytes were looked at. -/
theorem sniff_kind {size k : Nat} (hs : 0 < size) {all : Str} {length : Option Nat} (plan : List Nat)
    (pre rest : Str) (hb : body all length = pre ++ rest) (hpre : ∀ c ∈ pre, c.toNat < 0x20)
    (hrest : ∀ c, rest.head? = some c → 0x20 ≤ c.toNat) (hk : pre.length + (rest.take 1).length ≤ k) :
    let r := sniff size (new length k ⟨all, plan⟩)
    (r.1 = .xml ↔ rest.head? = some '<') ∧
    (r.1 = .json ↔ rest.head? = some '{' ∨ rest.head? = some '[' ∨ rest = []) ∧
    r.1 ≠ .ioError ∧
    (r.1 = .xml ∨ r.1 = .json → (readAll size r.2).1 = body all length) := by
  have hw : Used size k all length (new length k ⟨all, plan⟩) := Used.fresh plan
  have h0 : tell (new length k ⟨all, plan⟩) = 0 := rfl
  have hf := remaining_le (used_inv hw)
  obtain ⟨e1, e2, e3⟩ := skip_spec _ _ hw (Nat.lt_succ_of_le hf) pre rest
    (by rw [h0, List.drop_zero]; exact hb) hpre hrest
  have hrew := input_rewind hs e2 0 (by omega) (by omega)
  rw [if_pos (by rw [e3, h0]; omega)] at hrew
  obtain ⟨w', q1, q2, q3⟩ := hrew
  have q1' : seek size (skipControls ((new length k ⟨all, plan⟩).buffer.length +
      (new length k ⟨all, plan⟩).input.data.length + 1) (new length k ⟨all, plan⟩)).2 0 .set = some w' := q1
  simp only [sniff]
  rw [e1, q1']
  rw [List.drop_zero] at q3
  cases rest with
  | nil =>
    simp only [List.head?_nil, kindOf]
    simp [q3]
  | cons c cs =>
    have hasc : ¬ 128 ≤ ('{' : Char).toNat ∧ ¬ 128 ≤ ('[' : Char).toNat := by decide
    simp only [List.head?_cons, kindOf]
    by_cases h1 : c = '<'
    · subst h1
      simp [q3]
    · by_cases h3 : c = '{' ∨ c = '['
      · have h2 : ¬ 128 ≤ c.toNat := by rcases h3 with h | h <;> subst h <;> decide
        rw [if_neg h1, if_neg h2, if_pos h3]
        simp [q3, h1, h3]
      · have h4 := not_or.1 h3
        by_cases h2 : 128 ≤ c.toNat
        · rw [if_neg h1, if_pos h2]
          simp [h1, h4]
        · rw [if_neg h1, if_neg h2, if_neg h3]
          simp [h1, h4]

/-- C370, refuted for all bodies that start with a space: they are neither XML nor JSON. -/
theorem sniff_space_refuted {size k : Nat} (hs : 0 < size) (hk : 0 < k) (rest : Str) (plan : List Nat) :
    (sniff size (new none k ⟨' ' :: rest, plan⟩)).1 ≠ .xml ∧
    (sniff size (new none k ⟨' ' :: rest, plan⟩)).1 ≠ .json := by
  have h := sniff_kind (k := k) hs (all := ' ' :: rest) (length := none) plan [] (' ' :: rest) rfl (by simp)
    (by intro c hc; cases hc; decide) (by simp; omega)
  refine ⟨fun e => ?_, fun e => ?_⟩
  · have := h.1.1 e
    simp at this
  · have := h.2.1.1 e
    simp at this

/-- C371, refuted: XML behind more control characters than the buffer has bytes is an `IOError`. -/
theorem sniff_far_refuted {size k : Nat} (hs : 0 < size) {all : Str} {length : Option Nat} (plan : List Nat)
    (pre rest : Str) (hb : body all length = pre ++ '<' :: rest) (hpre : ∀ c ∈ pre, c.toNat < 0x20)
    (hk : k ≤ pre.length) : (sniff size (new length k ⟨all, plan⟩)).1 = .ioError := by
  have hw : Used size k all length (new length k ⟨all, plan⟩) := Used.fresh plan
  have h0 : tell (new length k ⟨all, plan⟩) = 0 := rfl
  have hf := remaining_le (used_inv hw)
  obtain ⟨e1, e2, e3⟩ := skip_spec _ _ hw (Nat.lt_succ_of_le hf) pre ('<' :: rest)
    (by rw [h0, List.drop_zero]; exact hb) hpre (by intro c hc; cases hc; decide)
  have hrew := input_rewind hs e2 0 (by omega) (by omega)
  rw [if_neg (by rw [e3, h0]; simp; omega)] at hrew
  have q1 : seek size (skipControls ((new length k ⟨all, plan⟩).buffer.length +
      (new length k ⟨all, plan⟩).input.data.length + 1) (new length k ⟨all, plan⟩)).2 0 .set = none := hrew
  simp only [sniff]
  rw [e1, q1]
  rfl

/-- Concrete cases: bodies that arrive byte by byte. -/
theorem sniff_sample :
    (sniff 8192 (new (some 4) 8 ⟨"\n<a>".toList, [0, 0, 0]⟩)).1 = .xml ∧
    (sniff 8192 (new none 8 ⟨"{}".toList, [0]⟩)).1 = .json ∧
    (sniff 8192 (new none 8 ⟨" {}".toList, [0]⟩)).1 = .invalid ∧
    (sniff 8192 (new none 2 ⟨"\n\n<a>".toList, []⟩)).1 = .ioError ∧
    detectEncoding "<a>".toList = some .utf8 := by
  decide +kernel

end Verif.Props.Sniff
