import Verif.Model.ODataUri

/-! # UTF-8 -/

namespace Verif.OData

open Verif

theorem ofNat_toNat (c : Char) : Char.ofNat c.toNat = c := by
  have h : c.toNat.isValidChar := c.valid
  rw [Char.ofNat, dif_pos h]
  rfl

theorem ofNat_small {n : Nat} (h : n < 0xD800) : (Char.ofNat n).toNat = n := by
  have : n.isValidChar := Or.inl h
  rw [Char.ofNat, dif_pos this]
  rfl

theorem char_bounds (c : Char) : c.toNat < 0xD800 ∨ (0xDFFF < c.toNat ∧ c.toNat < 0x110000) := c.valid

theorem decode_two {a b : Char} {s : Str} {n : Nat} (h1 : 0xC2 ≤ a.toNat) (h2 : a.toNat < 0xE0) (hb : isCont b = true)
    (hn : (a.toNat - 0xC0) * 64 + (b.toNat - 0x80) = n) :
    utf8Decode (a :: b :: s) = (utf8Decode s).map (Char.ofNat n :: ·) := by
  rw [utf8Decode.eq_def]
  simp only []
  rw [if_neg (by omega), if_neg (by omega), if_pos h2, if_pos hb, hn]

theorem decode_three {a b c : Char} {s : Str} {n : Nat} (h1 : 0xE0 ≤ a.toNat) (h2 : a.toNat < 0xF0) (hb : isCont b = true)
    (hc : isCont c = true) (hn : (a.toNat - 0xE0) * 4096 + (b.toNat - 0x80) * 64 + (c.toNat - 0x80) = n) (h3 : 0x800 ≤ n)
    (h4 : n < 0xD800 ∨ 0xE000 ≤ n) :
    utf8Decode (a :: b :: c :: s) = (utf8Decode s).map (Char.ofNat n :: ·) := by
  rw [utf8Decode.eq_def]
  simp only []
  rw [if_neg (by omega), if_neg (by omega), if_neg (by omega), if_pos h2, hn, if_pos]
  rw [hb, hc]
  simp
  omega

theorem decode_four {a b c d : Char} {s : Str} {n : Nat} (h1 : 0xF0 ≤ a.toNat) (h2 : a.toNat < 0xF5) (hb : isCont b = true)
    (hc : isCont c = true) (hd : isCont d = true)
    (hn : (a.toNat - 0xF0) * 262144 + (b.toNat - 0x80) * 4096 + (c.toNat - 0x80) * 64 + (d.toNat - 0x80) = n) (h3 : 0x10000 ≤ n)
    (h4 : n < 0x110000) :
    utf8Decode (a :: b :: c :: d :: s) = (utf8Decode s).map (Char.ofNat n :: ·) := by
  rw [utf8Decode.eq_def]
  simp only []
  rw [if_neg (by omega), if_neg (by omega), if_neg (by omega), if_neg (by omega), if_pos h2, hn, if_pos]
  rw [hb, hc, hd]
  simp
  omega

theorem cont_of {n : Nat} (h : n < 64) : isCont (Char.ofNat (0x80 + n)) = true := by
  unfold isCont
  rw [ofNat_small (by omega)]
  simp
  omega

theorem decode_one (c : Char) (s : Str) :
    utf8Decode ((if c.toNat < 0x80 then [c] else (Uri.utf8Bytes c.toNat).map Char.ofNat) ++ s) = (utf8Decode s).map (c :: ·) := by
  have hb := char_bounds c
  split
  · next h =>
    rw [List.singleton_append, utf8Decode.eq_def]
    simp only [h, if_true]
  · next h =>
    unfold Uri.utf8Bytes
    split
    · next h2 =>
      refine (decode_two (n := c.toNat) ?_ ?_ (cont_of (by omega)) ?_).trans (by rw [ofNat_toNat]; rfl)
      · rw [ofNat_small (by omega)]; omega
      · rw [ofNat_small (by omega)]; omega
      · rw [ofNat_small (by omega), ofNat_small (by omega)]; omega
    · next h2 =>
      split
      · next h3 =>
        refine (decode_three (n := c.toNat) ?_ ?_ (cont_of (by omega)) (cont_of (by omega)) ?_ (by omega) (by omega)).trans
          (by rw [ofNat_toNat]; rfl)
        · rw [ofNat_small (by omega)]; omega
        · rw [ofNat_small (by omega)]; omega
        · rw [ofNat_small (by omega), ofNat_small (by omega), ofNat_small (by omega)]; omega
      · next h3 =>
        refine (decode_four (n := c.toNat) ?_ ?_ (cont_of (by omega)) (cont_of (by omega)) (cont_of (by omega)) ?_ (by omega)
          (by omega)).trans (by rw [ofNat_toNat]; rfl)
        · rw [ofNat_small (by omega)]; omega
        · rw [ofNat_small (by omega)]; omega
        · rw [ofNat_small (by omega), ofNat_small (by omega), ofNat_small (by omega), ofNat_small (by omega)]; omega

/-- Encoded text is decoded. -/
theorem utf8_decode_encode (s : Str) : utf8Decode (utf8Encode s) = some s := by
  induction s with
  | nil => rfl
  | cons c s ih =>
    have : utf8Encode (c :: s) = (if c.toNat < 0x80 then [c] else (Uri.utf8Bytes c.toNat).map Char.ofNat) ++ utf8Encode s := rfl
    rw [this, decode_one, ih]
    rfl

theorem utf8_octets (s : Str) : ∀ c ∈ utf8Encode s, c.toNat < 256 := by
  intro c hc
  unfold utf8Encode at hc
  rw [List.mem_flatMap] at hc
  obtain ⟨d, _, hc⟩ := hc
  have hb := char_bounds d
  split at hc
  · simp only [List.mem_singleton] at hc
    subst hc
    omega
  · rw [List.mem_map] at hc
    obtain ⟨b, hb', rfl⟩ := hc
    have : b < 256 := by
      unfold Uri.utf8Bytes at hb'
      split at hb'
      · simp only [List.mem_cons, List.not_mem_nil, or_false] at hb'; omega
      · split at hb'
        · simp only [List.mem_cons, List.not_mem_nil, or_false] at hb'; omega
        · simp only [List.mem_cons, List.not_mem_nil, or_false] at hb'; omega
    rw [ofNat_small (by omega)]
    exact this

/-- ASCII text is its own encoding. -/
theorem utf8_ascii {s : Str} (h : ∀ c ∈ s, c.toNat < 128) : utf8Encode s = s := by
  induction s with
  | nil => rfl
  | cons c s ih =>
    have : utf8Encode (c :: s) = (if c.toNat < 0x80 then [c] else (Uri.utf8Bytes c.toNat).map Char.ofNat) ++ utf8Encode s := rfl
    rw [this, if_pos (h c (by simp)), ih (fun d hd => h d (by simp [hd]))]
    rfl

theorem isCont_bounds {c : Char} (h : isCont c = true) : 0x80 ≤ c.toNat ∧ c.toNat < 0xC0 := by
  unfold isCont at h
  simpa using h

theorem encode_cons (c : Char) (s : Str) :
    utf8Encode (c :: s) = (if c.toNat < 0x80 then [c] else (Uri.utf8Bytes c.toNat).map Char.ofNat) ++ utf8Encode s := rfl

theorem ofNat_high {n : Nat} (h1 : 0xDFFF < n) (h2 : n < 0x110000) : (Char.ofNat n).toNat = n := by
  have : n.isValidChar := Or.inr ⟨h1, h2⟩
  rw [Char.ofNat, dif_pos this]
  rfl

theorem ofNat_eq {n : Nat} {c : Char} (h : n = c.toNat) : Char.ofNat n = c := by rw [h, ofNat_toNat]

/-- Only encoded text is decoded. -/
theorem utf8_encode_decode : ∀ (s t : Str), utf8Decode s = some t → s = utf8Encode t
  | [], t, h => by
    rw [utf8Decode.eq_def] at h
    cases h
    rfl
  | a :: s, t, h => by
    rw [utf8Decode.eq_def] at h
    simp only [] at h
    split at h
    · next h1 =>
      obtain ⟨u, hu, rfl⟩ := Option.map_eq_some_iff.mp h
      rw [encode_cons, if_pos h1, ← utf8_encode_decode s u hu]
      rfl
    next h1 =>
    split at h
    · cases h
    next h2 =>
    split at h
    · next h3 =>
      cases s with
      | nil => cases h
      | cons b s =>
        simp only [] at h
        split at h
        · next hb =>
          obtain ⟨u, hu, rfl⟩ := Option.map_eq_some_iff.mp h
          have b1 := isCont_bounds hb
          rw [encode_cons, ofNat_small (by omega), if_neg (by omega), Uri.utf8Bytes, if_pos (by omega), ← utf8_encode_decode s u hu]
          show _ = _ :: _ :: _
          rw [ofNat_eq (c := a) (by omega), ofNat_eq (c := b) (by omega)]
          rfl
        · cases h
    next h3 =>
    split at h
    · next h4 =>
      cases s with
      | nil => cases h
      | cons b s =>
      cases s with
      | nil => cases h
      | cons c s =>
        simp only [] at h
        split at h
        · next hb =>
          obtain ⟨u, hu, rfl⟩ := Option.map_eq_some_iff.mp h
          simp only [Bool.and_eq_true, decide_eq_true_eq, Bool.not_eq_true', Bool.and_eq_false_iff, decide_eq_false_iff_not] at hb
          obtain ⟨⟨⟨hb, hc⟩, h5⟩, h6⟩ := hb
          have b1 := isCont_bounds hb
          have c1 := isCont_bounds hc
          have e : (Char.ofNat ((a.toNat - 0xE0) * 4096 + (b.toNat - 0x80) * 64 + (c.toNat - 0x80))).toNat =
              (a.toNat - 0xE0) * 4096 + (b.toNat - 0x80) * 64 + (c.toNat - 0x80) := by
            rcases h6 with h6 | h6
            · exact ofNat_small (by omega)
            · exact ofNat_high (by omega) (by omega)
          rw [encode_cons, e, if_neg (by omega), Uri.utf8Bytes, if_neg (by omega), if_pos (by omega), ← utf8_encode_decode s u hu]
          show _ = _ :: _ :: _ :: _
          rw [ofNat_eq (c := a) (by omega), ofNat_eq (c := b) (by omega), ofNat_eq (c := c) (by omega)]
          rfl
        · cases h
    next h4 =>
    split at h
    · next h5 =>
      cases s with
      | nil => cases h
      | cons b s =>
      cases s with
      | nil => cases h
      | cons c s =>
      cases s with
      | nil => cases h
      | cons d s =>
        simp only [] at h
        split at h
        · next hb =>
          obtain ⟨u, hu, rfl⟩ := Option.map_eq_some_iff.mp h
          simp only [Bool.and_eq_true, decide_eq_true_eq] at hb
          obtain ⟨⟨⟨⟨hb, hc⟩, hd⟩, h6⟩, h7⟩ := hb
          have b1 := isCont_bounds hb
          have c1 := isCont_bounds hc
          have d1 := isCont_bounds hd
          rw [encode_cons, ofNat_high (by omega) (by omega), if_neg (by omega), Uri.utf8Bytes, if_neg (by omega), if_neg (by omega),
            ← utf8_encode_decode s u hu]
          show _ = _ :: _ :: _ :: _ :: _
          rw [ofNat_eq (c := a) (by omega), ofNat_eq (c := b) (by omega), ofNat_eq (c := c) (by omega), ofNat_eq (c := d) (by omega)]
          rfl
        · cases h
    · cases h

end Verif.OData
