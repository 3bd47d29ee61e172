import Verif.Props.HttpTokens
import Verif.Lemmas.ContentPackage

/-!
# Versions, products and tags

C134: the order of products and versions.
-/

set_option linter.unusedVariables false
set_option linter.unusedSimpArgs false

namespace Verif.Props

open Verif Verif.Http

/-! ## Pieces -/

/-- A piece as a pair: numbers first. -/
def pieceKey : Piece → Int × Str
  | .num n => (n, [])
  | .txt s => (0, s)

instance : Std.TransCmp cmpPiece where
  eq_swap := by
    intro a b
    cases a <;> cases b
    · exact Std.OrientedCmp.eq_swap (cmp := compare)
    · rfl
    · rfl
    · exact Std.OrientedCmp.eq_swap (cmp := compare)
  isLE_trans := by
    intro a b c h1 h2
    cases a <;> cases b <;> cases c <;>
      first
      | exact Std.TransCmp.isLE_trans (cmp := compare) h1 h2
      | rfl
      | exact absurd h1 (by show ¬ (Ordering.gt.isLE = true); decide)
      | exact absurd h2 (by show ¬ (Ordering.gt.isLE = true); decide)

theorem cmpPiece_eq {a b : Piece} : cmpPiece a b = .eq ↔ a = b := by
  constructor
  · intro h
    cases a with
    | num n => cases b with
      | num m => rw [Std.LawfulEqCmp.eq_of_compare (cmp := compare) (show compare n m = .eq from h)]
      | txt t => cases h
    | txt s => cases b with
      | num m => cases h
      | txt t => rw [Std.LawfulEqCmp.eq_of_compare (cmp := compare) (show compare s t = .eq from h)]
  · rintro rfl; exact Std.ReflCmp.compare_self (cmp := cmpPiece)

/-- A comparison of lists where what is missing comes first, or last. -/
def cmpLists {α : Type} (c : α → α → Ordering) (missing : Ordering) : List α → List α → Ordering
  | [], [] => .eq
  | [], _ :: _ => missing
  | _ :: _, [] => missing.swap
  | a :: as, b :: bs => (c a b).then (cmpLists c missing as bs)

theorem cmpComponent_eq (a b : List Piece) : cmpComponent a b = cmpLists cmpPiece .gt a b := by
  induction a generalizing b with
  | nil => cases b <;> rfl
  | cons x a ih =>
    cases b with
    | nil => rfl
    | cons y b =>
      show (cmpPiece x y).then (cmpComponent a b) = (cmpPiece x y).then (cmpLists cmpPiece .gt a b)
      rw [ih]

theorem cmpExploded_eq (a b : List (List Piece)) : cmpExploded a b = cmpLists cmpComponent .lt a b := by
  induction a generalizing b with
  | nil => cases b <;> rfl
  | cons x a ih =>
    cases b with
    | nil => rfl
    | cons y b =>
      show (cmpComponent x y).then (cmpExploded a b) = (cmpComponent x y).then (cmpLists cmpComponent .lt a b)
      rw [ih]

theorem cmpLists_trans {α : Type} {c : α → α → Ordering} [Std.TransCmp c] (missing : Ordering) (hm : missing ≠ .eq) :
    Std.TransCmp (cmpLists c missing) where
  eq_swap := by
    intro a b
    induction a generalizing b with
    | nil => cases b <;> simp [cmpLists]
    | cons x a ih =>
      cases b with
      | nil => rfl
      | cons y b =>
        simp only [cmpLists]
        rw [Ordering.swap_then, ← ih, ← Std.OrientedCmp.eq_swap (cmp := c)]
  isLE_trans := by
    intro a b d h1 h2
    induction a generalizing b d with
    | nil =>
      cases d with
      | nil => rfl
      | cons z d =>
        cases b with
        | nil => exact h2
        | cons y b =>
          cases missing with
          | lt => rfl
          | eq => exact absurd rfl hm
          | gt => exact absurd h1 (by show ¬ (Ordering.gt.isLE = true); decide)
    | cons x a ih =>
      cases b with
      | nil =>
        cases d with
        | nil => exact h1
        | cons z d =>
          cases missing with
          | lt => exact absurd h1 (by show ¬ (Ordering.gt.isLE = true); decide)
          | eq => exact absurd rfl hm
          | gt => exact absurd h2 (by show ¬ (Ordering.gt.isLE = true); decide)
      | cons y b =>
        cases d with
        | nil => exact h2
        | cons z d =>
          simp only [cmpLists] at h1 h2 ⊢
          cases hxy : c x y with
          | gt => rw [hxy] at h1; cases h1
          | lt =>
            have : c x z = .lt := by
              cases hyz : c y z with
              | gt => rw [hyz] at h2; cases h2
              | lt => exact Std.TransCmp.lt_trans hxy hyz
              | eq => exact Std.TransCmp.lt_of_lt_of_eq hxy hyz
            rw [this]; rfl
          | eq =>
            rw [hxy] at h1
            cases hyz : c y z with
            | gt => rw [hyz] at h2; cases h2
            | lt => rw [Std.TransCmp.lt_of_eq_of_lt hxy hyz]; rfl
            | eq =>
              rw [hyz] at h2
              rw [Std.TransCmp.eq_trans hxy hyz]
              exact ih h1 h2

theorem cmpLists_eq {α : Type} {c : α → α → Ordering} (hc : ∀ a b, c a b = .eq ↔ a = b) {missing : Ordering}
    (hm : missing ≠ .eq) (a b : List α) : cmpLists c missing a b = .eq ↔ a = b := by
  induction a generalizing b with
  | nil =>
    cases b with
    | nil => simp [cmpLists]
    | cons y b => simp [cmpLists, hm]
  | cons x a ih =>
    cases b with
    | nil => cases missing <;> simp [cmpLists] at hm ⊢
    | cons y b =>
      simp only [cmpLists, List.cons.injEq]
      rw [← ih b, ← hc x y]
      cases c x y <;> simp [Ordering.then]

instance : Std.TransCmp cmpComponent := by
  have e : cmpComponent = cmpLists cmpPiece .gt := by funext a b; exact cmpComponent_eq a b
  rw [e]; exact cmpLists_trans _ (by decide)

instance : Std.TransCmp cmpExploded := by
  have e : cmpExploded = cmpLists cmpComponent .lt := by funext a b; exact cmpExploded_eq a b
  rw [e]; exact cmpLists_trans _ (by decide)

instance : Std.TransCmp cmpProduct := by
  have h1 : Std.TransCmp fun a b : Product => compare a.token b.token := trans_comap (cmp := compare) _
  have h2 : Std.TransCmp fun a b : Product => cmpExploded a.exploded b.exploded := trans_comap _
  exact @trans_then _ _ _ h1 h2

theorem cmpExploded_eq_iff (a b : List (List Piece)) : cmpExploded a b = .eq ↔ a = b := by
  rw [cmpExploded_eq]
  refine cmpLists_eq ?_ (by decide) a b
  intro a b
  rw [cmpComponent_eq]
  exact cmpLists_eq (fun a b => cmpPiece_eq) (by decide) a b

/-! ## Exploding versions -/

theorem pieces_nil : pieces [] = [] := by rw [pieces]

theorem pieces_digits {d : Str} (hd : d ≠ []) (ha : ∀ c ∈ d, Py.isDigit c = true) {t : Str}
    (ht : ∀ c u, t = c :: u → Py.isDigit c = false) : pieces (d ++ t) = .num (Py.digitsVal 10 d) :: pieces t := by
  cases d with
  | nil => exact absurd rfl hd
  | cons c d =>
    have hrest : ∀ d : Str, (∀ c ∈ d, Py.isDigit c = true) →
        (d ++ t).takeWhile Py.isDigit = d ∧ (d ++ t).dropWhile Py.isDigit = t := by
      intro d
      induction d with
      | nil =>
        intro _
        cases t with
        | nil => exact ⟨rfl, rfl⟩
        | cons x u =>
          have := ht x u rfl
          simp [this]
      | cons x d ih =>
        intro h
        have h1 := h x (by simp)
        have h2 := ih fun y hy => h y (by simp [hy])
        simp [h1, h2.1, h2.2]
    obtain ⟨h1, h2⟩ := hrest d fun y hy => ha y (by simp [hy])
    rw [List.cons_append, pieces, if_pos (ha c (by simp)), h1, h2]

theorem component_digits {d : Str} (hd : d ≠ []) (ha : ∀ c ∈ d, Py.isDigit c = true) {t : Str}
    (ht : ∀ c u, t = c :: u → Py.isDigit c = false) : component (d ++ t) = .num (Py.digitsVal 10 d) :: pieces t := by
  unfold component
  rw [pieces_digits hd ha ht]

theorem dot_not_digit : Py.isDigit '.' = false := by decide

theorem explode_parts {parts : List Str} (h0 : parts ≠ []) (h : ∀ p ∈ parts, '.' ∉ p) (hl : parts.getLast? ≠ some []) :
    explode (Py.join '.' parts) = parts.map component := by
  have hs : Py.split '.' (Py.join '.' parts) = parts := by
    clear hl
    induction parts with
    | nil => exact absurd rfl h0
    | cons p parts ih =>
      cases parts with
      | nil => exact CP.split_of_not_mem '.' p (h p (by simp))
      | cons q parts =>
        show Py.split '.' (p ++ '.' :: Py.join '.' (q :: parts)) = _
        rw [CP.split_append, CP.split_of_not_mem '.' p (h p (by simp)), ih (by simp) (fun r hr => h r (by simp [hr]))]
        rfl
  unfold explode
  rw [hs]
  dsimp only
  rw [if_neg hl]

/-- The dotted text of numbers. -/
def dotted (ns : List Nat) : Str := Py.join '.' (ns.map Py.strNat)

theorem explode_dotted {ns : List Nat} (h : ns ≠ []) : explode (dotted ns) = ns.map fun n : Nat => [Piece.num (n : Int)] := by
  unfold dotted
  rw [explode_parts, List.map_map]
  · refine List.map_congr_left fun n _ => ?_
    have := component_digits (XmlUtils.strNat_ne_nil n) (List.all_eq_true.mp (XmlUtils.strNat_all n)) (t := []) (fun c u e => by cases e)
    rw [List.append_nil, pieces_nil, XmlUtils.strNat_val] at this
    exact this
  · simpa using h
  · intro p hp
    obtain ⟨n, _, rfl⟩ := List.mem_map.mp hp
    exact CP.strNat_no dot_not_digit n
  · rw [List.getLast?_map]
    cases hg : ns.getLast? with
    | none => simp
    | some n =>
      simp only [Option.map_some, ne_eq, Option.some.injEq]
      exact XmlUtils.strNat_ne_nil n

/-! ## C134 -/

/-- **C134.**  The comparison of products is an order: of two products one is not after the other, and what follows is
transitive; two products are equal exactly if their names are and their versions explode to the same. -/
theorem product_order :
    (∀ a b, cmpProduct a b = (cmpProduct b a).swap) ∧
    (∀ a b c, (cmpProduct a b).isLE = true → (cmpProduct b c).isLE = true → (cmpProduct a c).isLE = true) ∧
    ∀ a b, cmpProduct a b = .eq ↔ a.token = b.token ∧ a.exploded = b.exploded := by
  refine ⟨fun a b => Std.OrientedCmp.eq_swap (cmp := cmpProduct), fun a b c => Std.TransCmp.isLE_trans (cmp := cmpProduct), ?_⟩
  intro a b
  unfold cmpProduct
  rw [← cmpExploded_eq_iff]
  constructor
  · intro h
    cases hc : compare a.token b.token with
    | eq =>
      rw [hc] at h
      exact ⟨Std.LawfulEqCmp.eq_of_compare (cmp := compare) hc, h⟩
    | lt => rw [hc] at h; cases h
    | gt => rw [hc] at h; cases h
  · rintro ⟨h1, h2⟩
    rw [h1, Std.ReflCmp.compare_self (cmp := compare), h2]
    rfl

/-- **C134.**  Dotted numbers are compared as numbers, one after the other, a missing one first: 1.0.3 before 1.0.10, and
1.0 before 1.0.0. -/
theorem dotted_exact (t : Str) (a b : List Nat) (ha : a ≠ []) (hb : b ≠ []) :
    cmpProduct ⟨t, some (dotted a)⟩ ⟨t, some (dotted b)⟩ = compare a b := by
  unfold cmpProduct
  dsimp only
  rw [Std.ReflCmp.compare_self (cmp := compare)]
  show cmpExploded (explode (dotted a)) (explode (dotted b)) = _
  rw [explode_dotted ha, explode_dotted hb]
  clear ha hb
  induction a generalizing b with
  | nil => cases b <;> rfl
  | cons x a ih =>
    cases b with
    | nil => rfl
    | cons y b =>
      have e : compare (x :: a) (y :: b) = (compare x y).then (compare a b) := by
        show List.compareLex compare _ _ = _
        rw [List.compareLex_cons_cons]
        rfl
      rw [e, ← ih]
      show (cmpComponent [.num x] [.num y]).then _ = _
      have : cmpComponent [.num x] [.num y] = compare x y := by
        show (compare (x : Int) (y : Int)).then .eq = _
        rw [Ordering.then_eq]
        show compareOfLessAndEq (x : Int) (y : Int) = compareOfLessAndEq x y
        unfold compareOfLessAndEq
        simp only [Int.ofNat_lt, Int.ofNat_inj]
      rw [this]

theorem version_split_last (v m : Str) (hm : '.' ∉ m) :
    ∃ ps l, Py.split '.' v = ps ++ [l] ∧ Py.split '.' (v ++ m) = ps ++ [l ++ m] := by
  induction v with
  | nil => exact ⟨[], [], rfl, CP.split_of_not_mem '.' m hm⟩
  | cons c v ih =>
    obtain ⟨ps, l, h1, h2⟩ := ih
    by_cases hc : c = '.'
    · refine ⟨[] :: ps, l, ?_, ?_⟩
      · rw [Py.split, if_pos hc, h1]; rfl
      · rw [List.cons_append, Py.split, if_pos hc, h2]; rfl
    · cases ps with
      | nil =>
        refine ⟨[], c :: l, ?_, ?_⟩
        · rw [Py.split, if_neg hc, h1]; rfl
        · rw [List.cons_append, Py.split, if_neg hc, h2]; rfl
      | cons p ps =>
        refine ⟨(c :: p) :: ps, l, ?_, ?_⟩
        · rw [Py.split, if_neg hc, h1]; rfl
        · rw [List.cons_append, Py.split, if_neg hc, h2]; rfl

theorem cmpLists_self_append {α : Type} {c : α → α → Ordering} (hc : ∀ a, c a a = .eq) (missing : Ordering) (a : List α)
    (b d : List α) : cmpLists c missing (a ++ b) (a ++ d) = cmpLists c missing b d := by
  induction a with
  | nil => rfl
  | cons x a ih => simp only [List.cons_append, cmpLists, hc, ih]; rfl

/-- A run of digits at the end of a text stays a run when something that is not a digit follows. -/
theorem pieces_append {m : Str} (hm : ∀ c u, m = c :: u → Py.isDigit c = false) :
    ∀ (n : Nat) (l : Str), l.length ≤ n → (∃ u d, l = u ++ [d] ∧ Py.isDigit d = true) → pieces (l ++ m) = pieces l ++ pieces m := by
  intro n
  induction n with
  | zero =>
    rintro l hl ⟨u, d, rfl, _⟩
    simp at hl
  | succ n ih =>
    rintro l hl ⟨u, d, rfl, hd⟩
    have key : ∀ (p : Char → Bool), (∀ c u, m = c :: u → p d = true → p c = false) →
        ∀ t : Str, (∃ u, t = u ++ [d]) →
          ((t ++ m).takeWhile p = t.takeWhile p ∧ (t ++ m).dropWhile p = t.dropWhile p ++ m) := by
      intro p hp t
      induction t with
      | nil => rintro ⟨u, e⟩; simp at e
      | cons x t iht =>
        rintro ⟨u, e⟩
        by_cases hx : p x = true
        · cases t with
          | nil =>
            have hxd : x = d := by
              cases u with
              | nil => simp at e; exact e
              | cons y u => simp at e
            subst hxd
            cases m with
            | nil => simp [hx]
            | cons c m =>
              have := hp c m rfl hx
              simp [hx, this]
          | cons y t =>
            have hu : ∃ u, y :: t = u ++ [d] := by
              cases u with
              | nil => simp at e
              | cons z u => exact ⟨u, by simp at e; exact e.2⟩
            have := iht hu
            simp only [List.cons_append] at this ⊢
            have e1 : ∀ r : Str, List.takeWhile p (x :: r) = x :: List.takeWhile p r := fun r => by
              rw [List.takeWhile_cons, if_pos hx]
            have e2 : ∀ r : Str, List.dropWhile p (x :: r) = List.dropWhile p r := fun r => by
              rw [List.dropWhile_cons, if_pos hx]
            rw [e1, e2, e1, e2, this.1, this.2]
            exact ⟨rfl, rfl⟩
        · simp only [List.cons_append]
          rw [List.takeWhile_cons, List.dropWhile_cons, List.takeWhile_cons, List.dropWhile_cons]
          simp only [Bool.not_eq_true] at hx
          rw [hx]
          simp
    cases hl2 : u ++ [d] with
    | nil => simp at hl2
    | cons c t =>
      have hlen : t.length ≤ n := by
        rw [hl2] at hl
        simp only [List.length_cons] at hl
        omega
      rw [List.cons_append, pieces, pieces]
      -- the tail still ends with a digit unless it is empty
      by_cases hc : Py.isDigit c = true
      · rw [if_pos hc, if_pos hc]
        cases ht : t with
        | nil =>
          subst ht
          simp only [List.nil_append, List.takeWhile_nil, List.dropWhile_nil, pieces_nil]
          cases m with
          | nil => simp [pieces_nil]
          | cons x m =>
            have := hm x m rfl
            simp [this]
        | cons y t' =>
          rw [← ht]
          have hend : ∃ u, t = u ++ [d] := by
            cases u with
            | nil => simp at hl2; rw [ht] at hl2; simp at hl2
            | cons z u => simp at hl2; exact ⟨u, hl2.2.symm⟩
          obtain ⟨h1, h2⟩ := key Py.isDigit (fun c u e _ => hm c u e) t hend
          rw [h1, h2, List.cons_append]
          congr 1
          cases hdw : t.dropWhile Py.isDigit with
          | nil => rw [List.nil_append, pieces_nil, List.nil_append]
          | cons z w =>
            rw [← hdw]
            refine ih _ (Nat.le_trans (dropWhile_le _ _) hlen) ?_
            obtain ⟨u2, hu2⟩ := hend
            have : ∃ v, t.dropWhile Py.isDigit = v ++ [d] := by
              have hsuf : t.dropWhile Py.isDigit <:+ t := List.dropWhile_suffix _
              rw [hu2] at hsuf
              rcases List.suffix_concat_iff.mp hsuf with e | ⟨v, e, _⟩
              · rw [hu2] at hdw; rw [e] at hdw; cases hdw
              · exact ⟨v, by rw [hu2]; exact e⟩
            obtain ⟨v, hv⟩ := this
            exact ⟨v, d, hv, hd⟩
      · simp only [Bool.not_eq_true] at hc
        rw [hc]
        simp only [Bool.false_eq_true, if_false]
        have hend : ∃ u, t = u ++ [d] := by
          cases u with
          | nil =>
            simp at hl2
            rw [hl2.1] at hd
            rw [hd] at hc
            cases hc
          | cons z u => simp at hl2; exact ⟨u, hl2.2.symm⟩
        obtain ⟨h1, h2⟩ := key (fun x => !Py.isDigit x) (fun c u e hp => by rw [hd] at hp; cases hp) t hend
        rw [h1, h2, List.cons_append]
        congr 1
        have hsuf : t.dropWhile (fun x => !Py.isDigit x) <:+ t := List.dropWhile_suffix _
        obtain ⟨u2, hu2⟩ := hend
        have : ∃ v, t.dropWhile (fun x => !Py.isDigit x) = v ++ [d] := by
          rw [hu2] at hsuf
          rcases List.suffix_concat_iff.mp hsuf with e | ⟨v, e, _⟩
          · exfalso
            have : ∀ x ∈ u2 ++ [d], (!Py.isDigit x) = true := by
              intro x hx
              have hall := List.takeWhile_append_dropWhile (p := fun x => !Py.isDigit x) (l := u2 ++ [d])
              rw [e, List.append_nil] at hall
              rw [← hall] at hx
              exact List.all_eq_true.mp (List.all_takeWhile (p := fun x => !Py.isDigit x)) x hx
            have := this d (by simp)
            rw [hd] at this
            cases this
          · exact ⟨v, by rw [hu2]; exact e⟩
        obtain ⟨v, hv⟩ := this
        exact ih _ (Nat.le_trans (dropWhile_le _ _) hlen) ⟨v, d, hv, hd⟩

/-- **C134.**  A version with a modifier after its last number comes before the version without: 1.0a before 1.0. -/
theorem modifier_before (t v m : Str) (d : Char) (hd : Py.isDigit d = true) (hm0 : m ≠ []) (hm : '.' ∉ m)
    (hm1 : ∀ c u, m = c :: u → Py.isDigit c = false) :
    cmpProduct ⟨t, some (v ++ [d] ++ m)⟩ ⟨t, some (v ++ [d])⟩ = .lt := by
  unfold cmpProduct
  dsimp only
  rw [Std.ReflCmp.compare_self (cmp := compare)]
  show cmpExploded (explode (v ++ [d] ++ m)) (explode (v ++ [d])) = _
  have hdd : '.' ∉ [d] := by
    intro h
    rw [List.mem_singleton] at h
    rw [← h, dot_not_digit] at hd
    cases hd
  obtain ⟨ps, l, h1, h2⟩ := version_split_last (v ++ [d]) m hm
  obtain ⟨ps', l', h1', h2'⟩ := version_split_last v [d] hdd
  have hl : l = l' ++ [d] := by
    have := h1.symm.trans h2'
    have := List.append_inj' this rfl
    simpa using this.2
  unfold explode
  rw [h1, h2]
  simp only [List.getLast?_append, List.getLast?_singleton, Option.some_or, Option.some.injEq]
  rw [if_neg (by intro h; exact hm0 (List.append_eq_nil_iff.mp h).2), if_neg (by rw [hl]; simp)]
  rw [List.map_append, List.map_append, cmpExploded_eq,
    cmpLists_self_append (fun a => Std.ReflCmp.compare_self (cmp := cmpComponent))]
  show (cmpComponent (component (l ++ m)) (component l)).then .eq = _
  rw [Ordering.then_eq]
  have hp : pieces (l ++ m) = pieces l ++ pieces m := pieces_append hm1 _ l (Nat.le_refl _) ⟨l', d, hl, hd⟩
  have hc : component (l ++ m) = component l ++ pieces m := by
    unfold component
    rw [hp]
    cases hpl : pieces l with
    | nil =>
      exfalso
      rw [hl] at hpl
      cases hx : l' ++ [d] with
      | nil => simp at hx
      | cons c t =>
        rw [hx, pieces] at hpl
        split at hpl <;> cases hpl
    | cons p q => cases p <;> rfl
  rw [hc, cmpComponent_eq]
  have := cmpLists_self_append (c := cmpPiece) (fun a => Std.ReflCmp.compare_self (cmp := cmpPiece)) .gt (component l)
    (pieces m) []
  rw [List.append_nil] at this
  rw [this]
  cases m with
  | nil => exact absurd rfl hm0
  | cons c u =>
    rw [pieces]
    split <;> rfl

theorem dropLast_getLast {l : List Str} {x : Str} (h : l.getLast? = some x) : l.dropLast ++ [x] = l := by
  obtain ⟨ys, rfl⟩ := List.getLast?_eq_some_iff.mp h
  rw [List.dropLast_concat]

/-- **C134.**  A version comes before every version that continues it after a point: 1.0 before 1.0.3, but also before
1.0.0. -/
theorem continued_after (t v w : Str) (hw : w ≠ []) :
    cmpProduct ⟨t, some v⟩ ⟨t, some (v ++ '.' :: w)⟩ = .lt := by
  unfold cmpProduct
  dsimp only
  rw [Std.ReflCmp.compare_self (cmp := compare)]
  show cmpExploded (explode v) (explode (v ++ '.' :: w)) = _
  unfold explode
  rw [CP.split_append]
  have hne : Py.split '.' w ≠ [] := CP.split_ne_nil '.' w
  have hlast : (Py.split '.' v ++ Py.split '.' w).getLast? = (Py.split '.' w).getLast? := by
    rw [List.getLast?_append]
    cases h : (Py.split '.' w).getLast? with
    | none => exact absurd (List.getLast?_eq_none_iff.mp h) hne
    | some x => rfl
  dsimp only
  rw [hlast]
  -- what is compared on the right begins with all components of `v`
  have hright : ∃ k, (if (Py.split '.' w).getLast? = some [] then (Py.split '.' v ++ Py.split '.' w).dropLast
      else Py.split '.' v ++ Py.split '.' w) = Py.split '.' v ++ k ∧ k ≠ [] := by
    split
    · rename_i h
      refine ⟨(Py.split '.' w).dropLast, List.dropLast_append_of_ne_nil hne, ?_⟩
      intro e
      have h2 := dropLast_getLast h
      rw [e, List.nil_append] at h2
      have := CP.join_split '.' w
      rw [← h2] at this
      exact hw this.symm
    · exact ⟨_, rfl, hne⟩
  obtain ⟨k, hk, hk0⟩ := hright
  rw [hk]
  have hself := fun a => Std.ReflCmp.compare_self (cmp := cmpComponent) (a := a)
  split
  · rename_i h
    have h2 := dropLast_getLast h
    have e : Py.split '.' v ++ k = (Py.split '.' v).dropLast ++ ([] :: k) := by
      rw [← List.singleton_append (x := ([] : Str)), ← List.append_assoc, h2]
    rw [e, List.map_append, cmpExploded_eq]
    have := cmpLists_self_append hself .lt ((Py.split '.' v).dropLast.map component) [] (([] :: k).map component)
    rw [List.append_nil] at this
    rw [this]
    rfl
  · rw [List.map_append, cmpExploded_eq]
    have := cmpLists_self_append hself .lt ((Py.split '.' v).map component) [] (k.map component)
    rw [List.append_nil] at this
    rw [this]
    cases k with
    | nil => exact absurd rfl hk0
    | cons x k => rfl

/-- **C134 refuted.**  Products can be equal without having the same version: 1 and 01. -/
theorem same_version_refuted :
    cmpProduct ⟨"a".toList, some "1".toList⟩ ⟨"a".toList, some "01".toList⟩ = .eq ∧
    cmpProduct ⟨"a".toList, some "1".toList⟩ ⟨"a".toList, some "1.".toList⟩ = .eq ∧
    cmpProduct ⟨"a".toList, some []⟩ ⟨"a".toList, none⟩ = .eq := by decide +kernel

/-- The examples of the documentation: 1.0a < 1.0 < 1.0.3a3 < 1.0.3a20 < 1.0.3b1 < 1.0.3, and 1.0b1 < 1.0dev. -/
theorem product_examples :
    (["1.0a", "1.0", "1.0.3a3", "1.0.3a20", "1.0.3b1", "1.0.3", "1.0.10"].map fun v => (⟨['p'], some v.toList⟩ : Product)).Pairwise
      (fun a b => cmpProduct a b = .lt) ∧
    cmpProduct ⟨['p'], some "1.0b1".toList⟩ ⟨['p'], some "1.0dev".toList⟩ = .lt ∧
    explode "2.b3".toList = [[.num 2], [.num (-1), .txt ['b'], .num 3]] := by decide +kernel

/-- **C134.**  Versions of HTTP are ordered by the major and then by the minor number; they are equal only if they are
the same. -/
theorem http_version_order (a b : HttpVersion) :
    (cmpVersion a b = .lt ↔ a.major < b.major ∨ a.major = b.major ∧ a.minor < b.minor) ∧
    (cmpVersion a b = .eq ↔ a = b) ∧
    (cmpVersion a b = .gt ↔ b.major < a.major ∨ a.major = b.major ∧ b.minor < a.minor) := by
  obtain ⟨a1, a2⟩ := a
  obtain ⟨b1, b2⟩ := b
  unfold cmpVersion
  simp only [HttpVersion.mk.injEq]
  by_cases h1 : a1 < b1
  · simp [h1]; omega
  · by_cases h2 : a1 > b1
    · simp [h1, h2]; omega
    · by_cases h3 : a2 < b2
      · simp [h1, h2, h3]; omega
      · by_cases h4 : a2 > b2
        · simp [h1, h2, h3, h4]; omega
        · simp [h1, h2, h3, h4]; omega

end Verif.Props
