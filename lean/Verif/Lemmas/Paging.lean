import Verif.Model.Paging
import Verif.Spec.Paging

/-! Lemmas about pages and ordering. -/

set_option linter.unusedVariables false

namespace Verif.Paging

open Verif Verif.Py Verif.Spec.Paging

variable {E : Type}

/-! ### Skip tokens -/

theorem hexNat_all (n : Nat) : (hexNat n).all isHex = true := by
  fun_induction hexNat n with
  | case1 n digit h =>
    have : ∀ m : Fin 16, isHex (digit m.val) = true := by decide
    have := this ⟨n % 16, Nat.mod_lt _ (by decide)⟩
    simpa [digit] using this
  | case2 n digit h ih =>
    have : ∀ m : Fin 16, isHex (digit m.val) = true := by decide
    have := this ⟨n % 16, Nat.mod_lt _ (by decide)⟩
    simp only [List.all_append, ih, List.all_cons, List.all_nil, Bool.and_true, Bool.true_and]
    simpa [digit] using this

theorem hexNat_ne_nil (n : Nat) : hexNat n ≠ [] := by
  fun_induction hexNat n <;> simp

theorem hexNat_val (n : Nat) : digitsVal 16 (hexNat n) = n := by
  fun_induction hexNat n with
  | case1 n digit h =>
    have : ∀ m : Fin 16, hexVal (digit m.val) = m.val := by decide
    have := this ⟨n, h⟩
    simp only [digitsVal, List.foldl_cons, List.foldl_nil]
    simp only at this
    omega
  | case2 n digit h ih =>
    have : ∀ m : Fin 16, hexVal (digit m.val) = m.val := by decide
    have := this ⟨n % 16, Nat.mod_lt _ (by decide)⟩
    have h2 : digit (n % 16) = digit n := by simp [digit]
    rw [h2] at this
    unfold digitsVal at *
    rw [List.foldl_append, ih]
    simp only [List.foldl_cons, List.foldl_nil, this]
    omega

theorem hexNat_noX (n : Nat) (c : Char) (h : c = '-' ∨ c = 'x' ∨ c = 'X') : c ∉ hexNat n := by
  intro hm
  have := List.all_eq_true.mp (hexNat_all n) c hm
  rcases h with h | h | h <;> subst h <;> exact absurd this (by decide)

theorem parse_hexNat (n : Nat) : intOfHexStr (hexNat n) = .ok (n : Int) := by
  have h1 := hexNat_noX n '-' (by simp)
  have h2 := hexNat_noX n 'x' (by simp)
  have h3 := hexNat_noX n 'X' (by simp)
  have hv := hexNat_val n
  have ha := hexNat_all n
  have hn := hexNat_ne_nil n
  unfold intOfHexStr
  generalize hexNat n = s at *
  split
  · exact absurd (by simp) h1
  · dsimp only
    split
    · exact absurd (by simp) h2
    · exact absurd (by simp) h3
    · rw [if_pos ⟨hn, ha⟩, hv]

theorem parse_hexFormat (n : Nat) : intOfHexStr (hexFormat (n : Int)) = .ok (n : Int) := by
  unfold hexFormat
  rw [if_neg (by omega)]
  simpa using parse_hexNat n

/-! ### One page -/

theorem pageLoop_none (a : Nat) (es : List E) : ∀ i : Nat,
    pageLoop (a : Int) none (i : Int) es = (es.drop (a - i), none) := by
  induction es with
  | nil => intro i; simp [pageLoop]
  | cons e es ih =>
    intro i
    have := ih (i + 1)
    simp only [pageLoop, Int.natCast_add] at this ⊢
    rw [show ((i : Int) + 1) = (i : Int) + ((1 : Nat) : Int) from rfl, this]
    by_cases h : a ≤ i
    · rw [if_pos (by omega)]
      simp [show a - i = 0 by omega, show a - (i + 1) = 0 by omega]
    · rw [if_neg (by omega)]
      rw [show a - i = (a - (i + 1)) + 1 by omega]
      simp

theorem pageLoop_some (a s : Nat) (es : List E) : ∀ i : Nat, i ≤ a + s →
    pageLoop (a : Int) (some ((a : Int) + s)) (i : Int) es =
      ((es.drop (a - i)).take (a + s - max i a), if es.length > a + s - i then some ((a : Int) + s) else none) := by
  induction es with
  | nil => intro i hi; simp [pageLoop]
  | cons e es ih =>
    intro i hi
    simp only [pageLoop]
    by_cases h : i < a
    · have := ih (i + 1) (by omega)
      simp only [Int.natCast_add] at this
      rw [if_pos (show (i : Int) < a by omega), show ((i : Int) + 1) = (i : Int) + ((1 : Nat) : Int) from rfl, this]
      rw [show a - i = (a - (i + 1)) + 1 by omega, show max (i + 1) a = a by omega, show max i a = a by omega]
      simp only [List.drop_succ_cons, List.length_cons]
      congr 1
      by_cases h2 : es.length > a + s - (i + 1)
      · rw [if_pos h2, if_pos (by omega)]
      · rw [if_neg h2, if_neg (by omega)]
    · rw [if_neg (show ¬ (i : Int) < a by omega)]
      by_cases h2 : i < a + s
      · have := ih (i + 1) (by omega)
        simp only [Int.natCast_add] at this
        rw [if_pos (show (i : Int) < (a : Int) + s by omega), show ((i : Int) + 1) = (i : Int) + ((1 : Nat) : Int) from rfl, this]
        rw [show a - i = 0 by omega, show a - (i + 1) = 0 by omega, show max (i + 1) a = i + 1 by omega,
          show max i a = i by omega]
        simp only [List.drop_zero, List.length_cons]
        rw [show a + s - i = (a + s - (i + 1)) + 1 by omega]
        simp only [List.take_succ_cons]
        congr 1
        by_cases h3 : es.length > a + s - (i + 1)
        · rw [if_pos h3, if_pos (by omega)]
        · rw [if_neg h3, if_neg (by omega)]
      · rw [if_neg (show ¬ (i : Int) < (a : Int) + s by omega)]
        rw [show a + s - max i a = 0 by omega, show a + s - i = 0 by omega]
        simp
        omega

theorem pageLoop_page (a s : Nat) (es : List E) :
    pageLoop (a : Int) (some ((a : Int) + s)) 0 es =
      (page es a s 0, if es.length > a + s then some ((a : Int) + s) else none) := by
  have := pageLoop_some a s es 0 (by omega)
  simpa [page] using this

/-! ### Sorting -/

section Sorting

variable {le : E → E → Bool} {s : E → E → Prop}

/-- The order by `le`, in case of a tie by `s`. -/
def Lex (le : E → E → Bool) (s : E → E → Prop) (a b : E) : Prop := le a b = true ∧ (le b a = true → s a b)

theorem insertSorted_perm (x : E) (l : List E) : (insertSorted le x l).Perm (x :: l) := by
  induction l with
  | nil => exact .refl _
  | cons y ys ih =>
    unfold insertSorted
    split
    · exact .refl _
    · exact (ih.cons y).trans (.swap _ _ _)

theorem stableSort_perm (l : List E) : (stableSort le l).Perm l := by
  induction l with
  | nil => exact .refl _
  | cons x l ih =>
    show (insertSorted le x (stableSort le l)).Perm _
    exact (insertSorted_perm x _).trans (ih.cons x)

theorem insertSorted_lex (hc : Comparison le) (x : E) (l : List E) (hx : ∀ y ∈ l, s x y) (hl : l.Pairwise (Lex le s)) :
    (insertSorted le x l).Pairwise (Lex le s) := by
  induction l with
  | nil => simp [insertSorted]
  | cons y ys ih =>
    unfold insertSorted
    have hy := List.pairwise_cons.mp hl
    split
    · rename_i hxy
      refine List.pairwise_cons.mpr ⟨?_, hl⟩
      intro z hz
      refine ⟨?_, fun _ => hx z hz⟩
      rcases List.mem_cons.mp hz with h | h
      · subst h; exact hxy
      · exact hc.trans _ _ _ hxy (hy.1 z h).1
    · rename_i hxy
      refine List.pairwise_cons.mpr ⟨?_, ih (fun z hz => hx z (List.mem_cons_of_mem _ hz)) hy.2⟩
      intro z hz
      rcases List.mem_cons.mp ((insertSorted_perm x ys).mem_iff.mp hz) with h | h
      · subst h
        exact ⟨(hc.total y z).resolve_right hxy, fun h => absurd h hxy⟩
      · exact hy.1 z h

theorem stableSort_lex (hc : Comparison le) (l : List E) (hl : l.Pairwise s) : (stableSort le l).Pairwise (Lex le s) := by
  induction l with
  | nil => exact List.Pairwise.nil
  | cons x l ih =>
    have hx := List.pairwise_cons.mp hl
    show (insertSorted le x (stableSort le l)).Pairwise _
    refine insertSorted_lex hc x _ ?_ (ih hx.2)
    intro y hy
    exact hx.1 y ((stableSort_perm l).mem_iff.mp hy)

theorem stableSort_sorted (hc : Comparison le) (l : List E) : (stableSort le l).Pairwise (fun a b => le a b = true) := by
  have : l.Pairwise (fun _ _ => True) := by
    induction l with
    | nil => exact .nil
    | cons a l ih => exact List.pairwise_cons.mpr ⟨fun _ _ => trivial, ih⟩
  exact (stableSort_lex hc l this).imp (fun h => h.1)

end Sorting

theorem comparison_flip {le : E → E → Bool} (h : Comparison le) : Comparison (fun a b => le b a) :=
  ⟨fun a b => (h.total b a), fun a b c h1 h2 => h.trans c b a h2 h1⟩

theorem orderPaged_cons (keyLe : E → E → Bool) (r : (E → E → Bool) × Bool) (rs) (es : List E) :
    orderPaged keyLe (r :: rs) es = stableSort (if r.2 then fun a b => r.1 b a else r.1) (orderPaged keyLe rs es) := by
  unfold orderPaged
  rw [List.reverse_cons, List.foldl_append]
  rfl

end Verif.Paging
