import Verif.Model.AutoDetect

/-!
# Encodings of XML files: properties
-/

namespace Verif.Props.AutoDetect

open Verif Verif.AutoDetect

theorem bytes_differ : byte 0 ≠ byte 255 ∧ byte 0 ≠ byte 254 ∧ byte 254 ≠ byte 255 ∧ byte 0 ≠ byte 239 ∧
    byte 254 ≠ byte 239 ∧ byte 255 ≠ byte 239 ∧ byte 0 ≠ '<' ∧ byte 255 ≠ '<' ∧ byte 254 ≠ '<' ∧ byte 239 ≠ '<' ∧
    byte 3 ≠ '<' ∧ byte 4 ≠ '<' := by decide

/-- C372: the encoding of a file with a mark of UTF-16 or UTF-32 is found, and the text starts behind
the mark, whatever follows and however short the file is. -/
theorem xml_marks (t : Str) :
    (t.take 2 ≠ [byte 0, byte 0] →
      autoDetect (byte 254 :: byte 255 :: t) = some ⟨"utf_16_be".toList, 2, true⟩ ∧
      autoDetect (byte 255 :: byte 254 :: t) = some ⟨"utf_16_le".toList, 2, true⟩) ∧
    autoDetect (byte 0 :: byte 0 :: byte 254 :: byte 255 :: t) = some ⟨"utf_32_be".toList, 4, true⟩ ∧
    autoDetect (byte 255 :: byte 254 :: byte 0 :: byte 0 :: t) = some ⟨"utf_32_le".toList, 4, true⟩ := by
  refine ⟨?_, ?_, ?_⟩
  · intro ht
    have hpad : ∀ a b : Char, (padded ((a :: b :: t).take 4)).take 2 = [a, b] := by
      intro a b
      simp [padded]
    have hd : ∀ a b : Char, (padded ((a :: b :: t).take 4)).drop 2 ≠ [byte 0, byte 0] := by
      intro a b
      have hq : 'Q' ≠ byte 0 := by decide
      rcases t with _ | ⟨x, _ | ⟨y, t⟩⟩
      · simp [padded, List.replicate, hq]
      · simp [padded, hq]
      · simpa [padded] using ht
    have e1 : lookup [byte 254, byte 255] = ⟨"utf_16_be".toList, 2, true⟩ := by decide +kernel
    have e2 : lookup [byte 255, byte 254] = ⟨"utf_16_le".toList, 2, true⟩ := by decide +kernel
    constructor
    · unfold autoDetect
      simp only
      rw [hpad, if_pos (Or.inr rfl), if_pos (hd _ _), e1]
    · unfold autoDetect
      simp only
      rw [hpad, if_pos (Or.inl rfl), if_pos (hd _ _), e2]
  · show autoDetect ([byte 0, byte 0, byte 254, byte 255]) = _
    decide +kernel
  · show autoDetect ([byte 255, byte 254, byte 0, byte 0]) = _
    decide +kernel

/-- C373: without a mark, XML that starts with `<?` in UTF-16, or with `<` in UTF-32, is found in both
orders of bytes; a text that starts with `<` and another byte than zero is taken for UTF-8, as is the
empty file, and nothing of it is skipped. -/
theorem xml_no_mark (t : Str) :
    autoDetect (byte 0 :: '<' :: byte 0 :: '?' :: t) = some ⟨"utf_16_be".toList, 0, false⟩ ∧
    autoDetect ('<' :: byte 0 :: '?' :: byte 0 :: t) = some ⟨"utf_16_le".toList, 0, false⟩ ∧
    autoDetect (byte 0 :: byte 0 :: byte 0 :: '<' :: t) = some ⟨"utf_32_be".toList, 0, false⟩ ∧
    autoDetect ('<' :: byte 0 :: byte 0 :: byte 0 :: t) = some ⟨"utf_32_le".toList, 0, false⟩ ∧
    autoDetect [] = some ⟨"utf-8".toList, 0, false⟩ ∧
    (t.head? ≠ some (byte 0) → autoDetect ('<' :: t) = some ⟨"utf-8".toList, 0, false⟩) := by
  refine ⟨?_, ?_, ?_, ?_, by decide +kernel, ?_⟩
  · show autoDetect ([byte 0, '<', byte 0, '?']) = _
    decide +kernel
  · show autoDetect (['<', byte 0, '?', byte 0]) = _
    decide +kernel
  · show autoDetect ([byte 0, byte 0, byte 0, '<']) = _
    decide +kernel
  · show autoDetect (['<', byte 0, byte 0, byte 0]) = _
    decide +kernel
  · intro ht
    obtain ⟨c, r, hp, hc⟩ : ∃ c r, padded (('<' :: t).take 4) = '<' :: c :: r ∧ c ≠ byte 0 := by
      have hq : 'Q' ≠ byte 0 := by decide
      cases t with
      | nil => exact ⟨'Q', ['Q', 'Q'], rfl, hq⟩
      | cons x xs =>
        refine ⟨x, xs.take 2 ++ List.replicate (4 - ('<' :: x :: xs.take 2).length) 'Q', rfl, ?_⟩
        intro h
        exact ht (by rw [h]; rfl)
    obtain ⟨b1, b2, b3, b4, b5, b6, b7, b8, b9, b10, b11, b12⟩ := bytes_differ
    unfold autoDetect
    simp only [hp]
    rw [if_neg (by simp [b8.symm, b9.symm]), if_neg (by simp [b10.symm])]
    have : Dict.get magicTable ('<' :: c :: r) = none := by
      simp [magicTable, Dict.get, b7, b8, b9, b10, b11, b12, hc.symm]
    unfold lookup
    rw [this]

/-- C374, refuted for all files with the mark of UTF-8: they cannot be opened. -/
theorem xml_mark_utf8_refuted (t : Str) : autoDetect (byte 239 :: byte 187 :: byte 191 :: t) = none := by
  have h : (padded ((byte 239 :: byte 187 :: byte 191 :: t).take 4)).take 3 = [byte 239, byte 187, byte 191] := by
    simp [padded]
  have h2 : (padded ((byte 239 :: byte 187 :: byte 191 :: t).take 4)).take 2 = [byte 239, byte 187] := by
    simp [padded]
  unfold autoDetect
  simp only
  rw [h, h2, if_neg (by decide), if_pos rfl]

/-- C375, refuted for all files in EBCDIC: they are taken for UTF-8. -/
theorem xml_ebcdic_refuted (t : Str) :
    autoDetect (byte 76 :: byte 111 :: byte 167 :: byte 148 :: t) = some ⟨"utf-8".toList, 0, false⟩ := by
  show autoDetect ([byte 76, byte 111, byte 167, byte 148]) = _
  decide +kernel

end Verif.Props.AutoDetect
