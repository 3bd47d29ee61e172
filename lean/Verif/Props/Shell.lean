import Verif.Model.Shell

/-! # C30: paging -/

namespace Verif.Props

open Verif Verif.Shell

/-- A contiguous run of at most `size` entries; empty only if the whole list is. -/
def IsWindow {α} (size : Nat) (w l : List α) : Prop :=
  w.length ≤ size ∧ (w = [] → l = []) ∧ ∃ a b, l = a ++ w ++ b ∧ size ∣ a.length ∧ (b ≠ [] → w.length = size)

variable {α : Type}

theorem clamp_range (s : St α) (hp : 0 < s.pageSize) :
    0 ≤ (clamp s).2 ∧ (s.list ≠ [] → (clamp s).2 * s.pageSize < s.list.length) := by
  unfold clamp
  by_cases h : s.list = []
  · simp [h]
  · have hl : 0 < s.list.length := List.length_pos_iff.2 h
    rw [if_pos h]
    dsimp only
    have hq : 0 ≤ ((s.list.length : Int) - 1) / s.pageSize := Int.ediv_nonneg (by omega) (by omega)
    have hm : ((s.list.length : Int) - 1) / s.pageSize * s.pageSize ≤ (s.list.length : Int) - 1 :=
      Int.ediv_mul_le _ (by omega)
    generalize hqq : ((s.list.length : Int) - 1) / s.pageSize = q at *
    have key : ∀ p : Int, p ≤ q → p * s.pageSize ≤ q * s.pageSize :=
      fun p h => Int.mul_le_mul_of_nonneg_right h (by omega)
    split
    · refine ⟨by omega, fun _ => ?_⟩
      rw [show q + 1 - 1 = q by omega]; omega
    · split
      · exact ⟨by omega, fun _ => by omega⟩
      · refine ⟨by omega, fun _ => ?_⟩
        have := key s.pageNum (by omega)
        omega

theorem printPage_window (s : St α) (hp : 0 < s.pageSize) : IsWindow s.pageSize (printPage s).1 s.list := by
  obtain ⟨h0, h1⟩ := clamp_range s hp
  unfold printPage IsWindow
  dsimp only
  generalize (clamp s).2 = p at *
  obtain ⟨k, rfl⟩ := Int.eq_ofNat_of_zero_le h0
  have hk : ((k : Int) * (s.pageSize : Int)).toNat = k * s.pageSize := by
    rw [← Int.natCast_mul]; rfl
  rw [hk]
  refine ⟨by simp; omega, ?_, s.list.take (k * s.pageSize), (s.list.drop (k * s.pageSize)).drop s.pageSize, ?_, ?_, ?_⟩
  · intro hw
    apply Decidable.byContradiction
    intro hl
    have h2 := h1 hl
    rw [← Int.natCast_mul] at h2
    have : ((s.list.drop (k * s.pageSize)).take s.pageSize).length = 0 := by rw [hw]; rfl
    rw [List.length_take, List.length_drop] at this
    omega
  · rw [List.append_assoc, List.take_append_drop, List.take_append_drop]
  · by_cases hl : s.list = []
    · simp [hl]
    · have h2 := h1 hl
      rw [← Int.natCast_mul] at h2
      rw [List.length_take, Nat.min_eq_left (by omega)]
      exact ⟨k, Nat.mul_comm _ _⟩
  · intro hb
    have : 0 < ((s.list.drop (k * s.pageSize)).drop s.pageSize).length := List.length_pos_iff.2 hb
    rw [List.length_take]
    rw [List.length_drop] at this
    omega

theorem pages_window (cs : List Cmd) : ∀ (s : St α), 0 < s.pageSize → ∀ w ∈ pages s cs, IsWindow s.pageSize w s.list := by
  induction cs with
  | nil => intro s _ w hw; cases hw
  | cons c cs ih =>
    intro s hp w hw
    rw [pages, List.mem_cons] at hw
    rcases hw with rfl | hw
    · cases c
      · exact printPage_window { s with pageNum := s.pageNum + 1 } hp
      · exact printPage_window { s with pageNum := s.pageNum - 1 } hp
    · have e : (doCmd s c).2.pageSize = s.pageSize ∧ (doCmd s c).2.list = s.list := by cases c <;> exact ⟨rfl, rfl⟩
      have := ih (doCmd s c).2 (by rw [e.1]; exact hp) w hw
      rw [e.1, e.2] at this
      exact this

/-- **C30 (window).**  Whatever paging commands are given, every page printed is a contiguous window of the list that starts
at a page boundary, is full unless it is the last, and is empty only if the list is. -/
theorem pages_are_windows (l : List α) (size : Nat) (hs : 0 < size) (cs : List Cmd) :
    ∀ w ∈ session l size cs, IsWindow size w l := by
  intro w hw
  unfold session at hw
  rw [List.mem_cons] at hw
  rcases hw with rfl | hw
  · exact printPage_window ⟨l, 0, size⟩ hs
  · exact pages_window cs (printPage ⟨l, 0, size⟩).2 hs w hw

theorem clamp_in_range (s : St α) (hl : s.list ≠ []) (h0 : 0 ≤ s.pageNum)
    (h1 : s.pageNum ≤ ((s.list.length : Int) - 1) / s.pageSize) : (clamp s).2 = s.pageNum := by
  unfold clamp
  rw [if_pos hl]
  dsimp only
  rw [if_neg (by omega), if_neg (by omega)]

/-- Printing page by page from page `k`. -/
theorem forward_concat (l : List α) (size : Nat) (hs : 0 < size) (hl : l ≠ []) (n : Nat) : ∀ (k : Nat),
    (k + n) = (l.length - 1) / size →
    ((pages ⟨l, k, size⟩ (List.replicate n .next)).flatten) = l.drop ((k + 1) * size) := by
  have hlen : 0 < l.length := List.length_pos_iff.2 hl
  induction n with
  | zero =>
    intro k hk
    have : l.length - 1 < ((l.length - 1) / size + 1) * size := Nat.lt_mul_of_div_lt (by omega) hs
    rw [List.drop_eq_nil_of_le (by rw [show k = (l.length - 1) / size by omega]; omega)]
    rfl
  | succ n ih =>
    intro k hk
    have hc : (clamp (⟨l, (k : Int) + 1, size⟩ : St α)).2 = ((k + 1 : Nat) : Int) := by
      rw [clamp_in_range _ hl (by show (0 : Int) ≤ (k : Int) + 1; omega)]
      · rfl
      · show (k : Int) + 1 ≤ ((l.length : Int) - 1) / (size : Int)
        have : ((l.length : Int) - 1) / (size : Int) = (((l.length - 1) / size : Nat) : Int) := by
          rw [Int.natCast_ediv]; congr 1; omega
        rw [this]; omega
    have hp : printPage (⟨l, (k : Int) + 1, size⟩ : St α) =
        ((l.drop ((k + 1) * size)).take size, ⟨l, ((k + 1 : Nat) : Int), size⟩) := by
      unfold printPage
      dsimp only
      rw [hc, show (((k + 1 : Nat) : Int) * (size : Int)).toNat = (k + 1) * size by rw [← Int.natCast_mul]; rfl]
    rw [List.replicate_succ, pages, List.flatten_cons]
    have hd : doCmd (⟨l, (k : Int), size⟩ : St α) .next = printPage ⟨l, (k : Int) + 1, size⟩ := rfl
    rw [hd, hp, ih (k + 1) (by omega)]
    dsimp only
    rw [show (k + 1 + 1) * size = (k + 1) * size + size by rw [Nat.add_mul (k + 1) 1]; omega, ← List.drop_drop,
      List.take_append_drop]

/-- **C30 (paging forward).**  Paging forward shows every entry of the list exactly once, in order. -/
theorem paging_forward_shows_all (l : List α) (size : Nat) (hs : 0 < size) :
    (session l size (List.replicate ((l.length - 1) / size) .next)).flatten = l := by
  by_cases hl : l = []
  · subst hl
    simp [session, pages, printPage, clamp]
  · have hlen : 0 < l.length := List.length_pos_iff.2 hl
    have hc : (clamp (⟨l, 0, size⟩ : St α)).2 = 0 :=
      clamp_in_range _ hl (by show (0 : Int) ≤ 0; decide) (Int.ediv_nonneg (by show (0 : Int) ≤ (l.length : Int) - 1; omega) (by show (0 : Int) ≤ (size : Int); omega))
    have hp : printPage (⟨l, 0, size⟩ : St α) = (l.take size, ⟨l, 0, size⟩) := by
      unfold printPage
      rw [hc]
      simp
    unfold session
    dsimp only
    rw [hp, List.flatten_cons]
    have := forward_concat l size hs hl ((l.length - 1) / size) 0 (by omega)
    simp only [Nat.zero_add, Nat.one_mul] at this
    rw [show ((0 : Nat) : Int) = 0 from rfl] at this
    rw [this, List.take_append_drop]

/-- **C30 (paging back).**  Paging back often enough shows the first page again, and going back or forward past the end
stays on the first or last page. -/
theorem paging_stops_at_ends (l : List α) (size : Nat) (hs : 0 < size) (hl : l ≠ []) :
    (doCmd ⟨l, 0, size⟩ .back).1 = l.take size ∧ (doCmd ⟨l, 0, size⟩ .back).2 = ⟨l, 0, size⟩ ∧
    (doCmd ⟨l, (((l.length - 1) / size : Nat) : Int), size⟩ .next).2 = ⟨l, (((l.length - 1) / size : Nat) : Int), size⟩ ∧
    (doCmd ⟨l, (((l.length - 1) / size : Nat) : Int), size⟩ .next).1 = l.drop ((l.length - 1) / size * size) := by
  have hlen : 0 < l.length := List.length_pos_iff.2 hl
  have hq : ((l.length : Int) - 1) / (size : Int) = (((l.length - 1) / size : Nat) : Int) := by
    rw [Int.natCast_ediv]; congr 1; omega
  have c1 : (clamp (⟨l, 0 - 1, size⟩ : St α)).2 = 0 := by
    unfold clamp
    rw [if_pos (show (⟨l, 0 - 1, size⟩ : St α).list ≠ [] from hl)]
    dsimp only
    rw [hq]
    generalize (l.length - 1) / size = q
    rw [if_neg (by omega), if_pos (by omega)]
  have c2 : (clamp (⟨l, (((l.length - 1) / size : Nat) : Int) + 1, size⟩ : St α)).2 = (((l.length - 1) / size : Nat) : Int) := by
    unfold clamp
    rw [if_pos (show (⟨l, (((l.length - 1) / size : Nat) : Int) + 1, size⟩ : St α).list ≠ [] from hl)]
    dsimp only
    rw [hq]
    generalize (l.length - 1) / size = q
    rw [if_pos (by omega)]
    omega
  refine ⟨?_, ?_, ?_, ?_⟩
  · show (printPage ⟨l, 0 - 1, size⟩).1 = _
    unfold printPage; rw [c1]; simp
  · show (printPage ⟨l, 0 - 1, size⟩).2 = _
    unfold printPage; rw [c1]
  · show (printPage ⟨l, (((l.length - 1) / size : Nat) : Int) + 1, size⟩).2 = _
    unfold printPage; rw [c2]
  · show (printPage ⟨l, (((l.length - 1) / size : Nat) : Int) + 1, size⟩).1 = _
    unfold printPage
    rw [c2]
    dsimp only
    rw [show ((((l.length - 1) / size : Nat) : Int) * (size : Int)).toNat = (l.length - 1) / size * size by
      rw [← Int.natCast_mul]; rfl]
    apply List.take_of_length_le
    rw [List.length_drop]
    have : l.length - 1 < ((l.length - 1) / size + 1) * size := Nat.lt_mul_of_div_lt (by omega) hs
    rw [Nat.add_mul] at this
    omega

/-- A list of 5 with pages of 2, going back and forth. -/
example : session [1, 2, 3, 4, 5] 2 [.next, .next, .next, .back, .back, .back] =
    [[1, 2], [3, 4], [5], [5], [3, 4], [1, 2], [1, 2]] := by decide +kernel

end Verif.Props
