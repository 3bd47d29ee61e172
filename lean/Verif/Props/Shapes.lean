import Verif.Model.Shapes
import Verif.Spec.Shapes
import Mathlib.Tactic.Linarith
import Mathlib.Tactic.Ring
import Mathlib.Algebra.Order.Ring.Rat
import Mathlib.Algebra.Order.Field.Basic

/-!
# Areas, hit testing and shape geometry (C18, C42, C43)
-/

set_option linter.unusedVariables false

namespace Verif.Props

open Verif Verif.Shapes Verif.Spec.Shapes

/-! ## C18: the numbers of an area -/

theorem splitAtNon_ne_nil (p : Char → Bool) (s : Str) : splitAtNon p s ≠ [] := by
  induction s with
  | nil => simp [splitAtNon]
  | cons c t ih =>
    rw [splitAtNon]
    split
    · split <;> simp
    · simp

theorem splitAtNon_sep (p : Char → Bool) (c : Char) (t : Str) (h : p c = false) :
    splitAtNon p (c :: t) = [] :: splitAtNon p t := by
  simp [splitAtNon, h]

theorem splitAtNon_cons (p : Char → Bool) (c : Char) (t : Str) (h : p c = true) :
    ∃ f fs, splitAtNon p t = f :: fs ∧ splitAtNon p (c :: t) = (c :: f) :: fs := by
  cases hs : splitAtNon p t with
  | nil => exact absurd hs (splitAtNon_ne_nil p t)
  | cons f fs => exact ⟨f, fs, rfl, by simp [splitAtNon, h, hs]⟩

/-- Number of the fields read. -/
def readFields (fs : List Str) : Except Err (List Int) := (fs.filter (· ≠ [])).mapM Py.intOfStr

theorem readFields_nil_cons (fs : List Str) : readFields ([] :: fs) = readFields fs := by
  simp [readFields]

theorem readFields_cons (f : Str) (hf : f ≠ []) (fs : List Str) :
    readFields (f :: fs) = Py.intOfStr f >>= fun n => readFields fs >>= fun ns => .ok (n :: ns) := by
  simp [readFields, hf, List.mapM_cons]
  rfl

/-- Loop invariant: with a partial number `v` pending, the loop returns what was collected before, followed by the
numbers of the remaining fields, the first of which is prefixed by `v` (if no separator has been seen since). -/
theorem areaNums_eq (s : Str) : ∀ (coords : List Int) (v : Str),
    v ≠ [] →
    (areaNums s coords v false =
      (match splitAtNon isNumChar s with
       | f :: fs => readFields ((v ++ f) :: fs) >>= fun ns => .ok (coords ++ ns)
       | [] => .ok coords)) ∧
    (areaNums s coords v true =
      (readFields (v :: splitAtNon isNumChar s) >>= fun ns => .ok (coords ++ ns))) := by
  induction s with
  | nil =>
    intro coords v hv
    simp only [areaNums, splitAtNon, List.append_nil]
    rw [readFields_cons v hv, readFields_cons v hv]
    simp only [hv, ne_eq, not_false_eq_true, if_true, readFields_nil_cons]
    constructor <;>
    · cases Py.intOfStr v with
      | error e => rfl
      | ok n => rfl
  | cons c t ih =>
    intro coords v hv
    cases hc : isNumChar c with
    | true =>
      obtain ⟨f, fs, h1, h2⟩ := splitAtNon_cons isNumChar c t hc
      rw [h2]
      constructor
      · rw [areaNums]
        simp only [hc, if_true, Bool.false_eq_true, false_and, if_false]
        rw [(ih coords (v ++ [c]) (by simp)).1, h1]
        simp
      · rw [areaNums]
        simp only [hc, if_true, hv, ne_eq, not_false_eq_true, and_self]
        rw [readFields_cons v hv]
        cases Py.intOfStr v with
        | error e => rfl
        | ok n =>
          show areaNums t (coords ++ [n]) [c] false = _
          rw [(ih (coords ++ [n]) [c] (by simp)).1, h1]
          simp only [List.cons_append, List.nil_append]
          show _ = (readFields ((c :: f) :: fs) >>= fun ns => Except.ok (n :: ns)) >>= fun ns => Except.ok (coords ++ ns)
          cases readFields ((c :: f) :: fs) with
          | error e => rfl
          | ok ns => show Except.ok (coords ++ [n] ++ ns) = Except.ok (coords ++ n :: ns); simp
    | false =>
      rw [splitAtNon_sep _ _ _ hc]
      constructor
      · rw [areaNums]
        simp only [hc, Bool.false_eq_true, if_false]
        rw [(ih coords v hv).2]
        simp
      · rw [areaNums]
        simp only [hc, Bool.false_eq_true, if_false]
        rw [(ih coords v hv).2]
        rw [readFields_cons v hv, readFields_cons v hv, readFields_nil_cons]

/-- **C18 (numbers, guarded).**  If the description of an area starts with a digit or a dot (or is empty), the numbers
read are exactly the numbers of its fields, in order and completely, whatever the separators between them; if some
field is not a whole number the conversion fails. -/
theorem area_numbers_partial (s : Str) (h : ∀ c ∈ s.head?, isNumChar c = true) :
    areaNums s [] [] false = (fields isNumChar s).mapM Py.intOfStr := by
  cases s with
  | nil => rfl
  | cons c t =>
    have hc : isNumChar c = true := h c (by simp)
    obtain ⟨f, fs, h1, h2⟩ := splitAtNon_cons isNumChar c t hc
    rw [areaNums]
    simp only [hc, if_true, Bool.false_eq_true, false_and, if_false, List.nil_append]
    rw [(areaNums_eq t [] [c] (by simp)).1, h1]
    show _ = readFields (splitAtNon isNumChar (c :: t))
    rw [h2]
    simp only [List.cons_append, List.nil_append]
    cases readFields ((c :: f) :: fs) <;> rfl

example : areaNums "12,34; 5  6".toList [] [] false = .ok [12, 34, 5, 6] := by decide +kernel

/-- **C18 refuted (numbers).**  After a leading separator the first number is torn apart: the five numbers read from
`" 12,34,5,6"` are 1, 2, 34, 5, 6. -/
theorem area_leading_separator :
    areaNums " 12,34,5,6".toList [] [] false = .ok [1, 2, 34, 5, 6] ∧
    (fields isNumChar " 12,34,5,6".toList).mapM Py.intOfStr = .ok [12, 34, 5, 6] := by
  decide +kernel

/-! ## C18: the region covered -/

/-- How the migrated item decides whether a clicked pixel belongs to the converted area (pixel lengths). -/
def covered (a : Shape × List Int) (px py : Int) : Except Err Bool :=
  testPoint a.1 (a.2.map Len.pixel) px py none none

theorem testRect_pixels (a b c d : Int) (rest : List Len) (px py : Int) (w h : Option Int) :
    testRect (.pixel a :: .pixel b :: .pixel c :: .pixel d :: rest) px py w h =
      .ok (decide (min a c ≤ px ∧ px < max a c ∧ min b d ≤ py ∧ py < max b d)) := by
  have e : ∀ (x0 x1 y0 y1 : Int), (if px < x0 ∨ py < y0 then (Except.ok false : Except Err Bool)
      else if px ≥ x1 ∨ py ≥ y1 then .ok false else .ok true) =
      .ok (decide (x0 ≤ px ∧ px < x1 ∧ y0 ≤ py ∧ py < y1)) := by
    intro x0 x1 y0 y1
    split
    · congr 1; symm; rw [decide_eq_false_iff_not]; omega
    · split
      · congr 1; symm; rw [decide_eq_false_iff_not]; omega
      · congr 1; symm; rw [decide_eq_true_eq]; omega
  have h4 : ¬ (Len.pixel a :: .pixel b :: .pixel c :: .pixel d :: rest).length < 4 := by simp
  rw [testRect, if_neg h4]
  rcases Int.le_total a c with h1 | h1 <;> rcases Int.le_total b d with h2 | h2
  all_goals
    by_cases ha : a > c <;> by_cases hb : b > d <;>
    simp only [val, at?, Len.get, bind, Except.bind, pure, Except.pure, List.getElem?_cons_zero,
      List.getElem?_cons_succ, ha, hb, if_true, if_false] <;> (rw [e]; congr 2; simp only [min_def, max_def]; (repeat' split) <;> congr <;> omega)

theorem testCircle_pixels (a b r : Int) (rest : List Len) (px py : Int) (w h : Option Int) :
    testCircle (.pixel a :: .pixel b :: .pixel r :: rest) px py w h =
      .ok (decide ((px - a) * (px - a) + (py - b) * (py - b) ≤ r * r)) := by
  simp [testCircle, val, at?, Len.get, bind, Except.bind, pure, Except.pure]

theorem testEllipse_pixels (a b rx ry : Int) (rest : List Len) (px py : Int) (w h : Option Int) :
    testEllipse (.pixel a :: .pixel b :: .pixel rx :: .pixel ry :: rest) px py w h =
      .ok (decide ((px - a) * (px - a) * ry * ry + (py - b) * (py - b) * rx * rx ≤ rx * rx * ry * ry)) := by
  simp [testEllipse, val, at?, Len.get, bind, Except.bind, pure, Except.pure]

/-- **C18 (rectangles, exact behaviour).**  A source rectangle with top-left pixel `(x, y)`, height `h` and width `w`
(both at least 1) is converted to an area that the migrated item matches against the rectangle one pixel narrower and
one pixel lower than intended. -/
theorem rectangle_region_partial (s : Str) (x y h w : Int) (rest : List Int) (hw : 1 ≤ w) (hh : 1 ≤ h)
    (hs : areaNums s [] [] false = .ok (x :: y :: h :: w :: rest)) :
    ∃ a, convertAreaCoords .rect s = .ok a ∧ ∀ px py, ∃ b, covered a px py = .ok b ∧
      (b = true ↔ InRect x y (w - 1) (h - 1) px py) := by
  refine ⟨(.rect, [x, y, x + w - 1, y + h - 1]), ?_, ?_⟩
  · simp [convertAreaCoords, hs, bind, Except.bind, padTo4]
  · intro px py
    refine ⟨_, testRect_pixels x y (x + w - 1) (y + h - 1) [] px py none none, ?_⟩
    rw [decide_eq_true_eq, InRect]
    have h1 : min x (x + w - 1) = x := by omega
    have h2 : max x (x + w - 1) = x + w - 1 := by omega
    have h3 : min y (y + h - 1) = y := by omega
    have h4 : max y (y + h - 1) = y + h - 1 := by omega
    rw [h1, h2, h3, h4]
    constructor <;> intro ⟨a, b, c, d⟩ <;> exact ⟨a, by omega, c, by omega⟩

example : areaNums "10,20,5,7".toList [] [] false = .ok [10, 20, 5, 7] := by decide +kernel

/-- **C18 refuted (region).**  Every rectangle loses its last row and its last column: for every rectangle at least one
pixel in each direction there is a pixel in it that the migrated item does not accept. -/
theorem rectangle_loses_pixels (s : Str) (x y h w : Int) (rest : List Int) (hw : 1 ≤ w) (hh : 1 ≤ h)
    (hs : areaNums s [] [] false = .ok (x :: y :: h :: w :: rest)) :
    ∃ a, convertAreaCoords .rect s = .ok a ∧
      ∀ px py, InRect x y w h px py → (px = x + w - 1 ∨ py = y + h - 1) → covered a px py = .ok false := by
  obtain ⟨a, ha, hc⟩ := rectangle_region_partial s x y h w rest hw hh hs
  refine ⟨a, ha, fun px py hin hl => ?_⟩
  obtain ⟨b, hb, hi⟩ := hc px py
  rw [hb]
  cases b with
  | false => rfl
  | true =>
    have := hi.1 rfl
    unfold InRect at this hin
    omega

/-- **C18 (ellipses and circles, guarded).**  For even positive diameters the converted area covers exactly the points
of the source ellipse. -/
theorem ellipse_region_partial (s : Str) (x y rx ry : Int) (rest : List Int) (hx : 1 ≤ rx) (hy : 1 ≤ ry)
    (hs : areaNums s [] [] false = .ok (x :: y :: 2 * rx :: 2 * ry :: rest)) :
    ∃ a, convertAreaCoords .ellipse s = .ok a ∧ ∀ px py, ∃ b, covered a px py = .ok b ∧
      (b = true ↔ InEllipse x y (2 * rx) (2 * ry) px py) := by
  have e1 : Int.fdiv (2 * rx) 2 = rx := by rw [Int.mul_comm]; exact Int.mul_fdiv_cancel rx (by omega)
  have e2 : Int.fdiv (2 * ry) 2 = ry := by rw [Int.mul_comm]; exact Int.mul_fdiv_cancel ry (by omega)
  by_cases hr : rx = ry
  · subst hr
    refine ⟨(.circle, [x, y, rx]), ?_, fun px py => ⟨_, testCircle_pixels x y rx [] px py none none, ?_⟩⟩
    · simp [convertAreaCoords, hs, bind, Except.bind, padTo4, e1]
    · rw [decide_eq_true_eq, InEllipse]
      generalize px - x = dx
      generalize py - y = dy
      have hp : 0 < 16 * (rx * rx) := by positivity
      have l : 4 * dx * dx * (2 * rx * (2 * rx)) + 4 * dy * dy * (2 * rx * (2 * rx)) =
          16 * (rx * rx) * (dx * dx + dy * dy) := by ring
      have r : 2 * rx * (2 * rx) * (2 * rx * (2 * rx)) = 16 * (rx * rx) * (rx * rx) := by ring
      rw [l, r]
      exact (Int.mul_le_mul_left hp).symm
  · refine ⟨(.ellipse, [x, y, rx, ry]), ?_, fun px py => ⟨_, testEllipse_pixels x y rx ry [] px py none none, ?_⟩⟩
    · have : ¬ (2 * rx = 2 * ry) := by omega
      simp [convertAreaCoords, hs, bind, Except.bind, padTo4, e1, e2, this]
    · rw [decide_eq_true_eq, InEllipse]
      generalize px - x = dx
      generalize py - y = dy
      have l : 4 * dx * dx * (2 * ry * (2 * ry)) + 4 * dy * dy * (2 * rx * (2 * rx)) =
          16 * (dx * dx * ry * ry + dy * dy * rx * rx) := by ring
      have r : 2 * rx * (2 * rx) * (2 * ry * (2 * ry)) = 16 * (rx * rx * ry * ry) := by ring
      rw [l, r]
      exact (Int.mul_le_mul_left (by omega)).symm

/-- **C18 refuted (degenerate ellipse).**  An ellipse of width 1 and height 0 is converted to one that accepts every
point of the plane. -/
theorem tiny_ellipse_covers_everything (px py : Int) :
    ∃ a, convertAreaCoords .ellipse "10,20,1,0".toList = .ok a ∧ covered a px py = .ok true := by
  refine ⟨(.ellipse, [10, 20, 0, 0]), by decide +kernel, ?_⟩
  show testEllipse [.pixel 10, .pixel 20, .pixel 0, .pixel 0] px py none none = _
  rw [testEllipse_pixels]
  simp

/-! ## C42: bounding boxes and offsets -/

theorem get_some (d : Int) (l : Len) : ∃ v, l.get (some d) = .ok v := by
  cases l with
  | pixel v => exact ⟨v, rfl⟩
  | percent v => exact ⟨_, rfl⟩

theorem sq_le {d r : Int} (hr : 0 ≤ r) (h : d * d ≤ r * r) : -r ≤ d ∧ d ≤ r := by
  constructor <;> nlinarith

/-- The size of the page on which bounding boxes are computed. -/
abbrev pageW : Option Int := some 1024
/-- The size of the page on which bounding boxes are computed. -/
abbrev pageH : Option Int := some 768

/-- **C42 (bounding box, guarded).**  For circles and ellipses with positive radii, for rectangles given by their
top-left and bottom-right corners, and for the default area, the bounding box is computed at once (no loop is run) and
contains every point of the page accepted by the area. -/
theorem bounding_box_partial (shape : Shape) (cs : List Len) (fuel : Nat) (x y l t r b : Int)
    (hp : shape ≠ .poly)
    (hc : shape = .circle → ∀ v, val cs 2 pageH = .ok v → 0 ≤ v)
    (he : shape = .ellipse → (∀ v, val cs 2 pageW = .ok v → 0 < v) ∧ (∀ v, val cs 3 pageH = .ok v → 0 < v))
    (hr : shape = .rect → ∀ v0 v1 v2 v3, val cs 0 pageW = .ok v0 → val cs 2 pageW = .ok v2 →
      val cs 1 pageH = .ok v1 → val cs 3 pageH = .ok v3 → v0 ≤ v2 ∧ v1 ≤ v3)
    (hb : calculateShapeBounds fuel shape cs = some (.ok (l, t, r, b)))
    (hin : testPoint shape cs x y pageW pageH = .ok true) :
    l ≤ x ∧ x ≤ r ∧ t ≤ y ∧ y ≤ b := by
  cases shape with
  | poly => exact absurd rfl hp
  | default =>
    simp only [calculateShapeBounds, Option.some.injEq, Except.ok.injEq, Prod.mk.injEq] at hb
    simp [testPoint] at hin
    omega
  | circle =>
    simp only [calculateShapeBounds, Option.some.injEq] at hb
    simp only [testPoint, testCircle] at hin
    split at hin
    · simp at hin
    · cases h0 : val cs 0 pageW with
      | error e => simp [h0, bind, Except.bind] at hb
      | ok cx =>
        cases h1 : val cs 1 pageH with
        | error e => simp [h0, h1, bind, Except.bind] at hin
        | ok cy =>
          cases h2 : val cs 2 pageH with
          | error e => simp [h0, h2, bind, Except.bind] at hb
          | ok rr =>
            have h3 := hc rfl rr h2
            simp [h0, h1, h2, bind, Except.bind, pure, Except.pure, optLt] at hb hin
            obtain ⟨hb1, hb2, hb3, hb4⟩ := hb
            have hx : (x - cx) * (x - cx) ≤ rr * rr := by nlinarith [mul_self_nonneg (y - cy)]
            have hy : (y - cy) * (y - cy) ≤ rr * rr := by nlinarith [mul_self_nonneg (x - cx)]
            have := sq_le h3 hx
            have := sq_le h3 hy
            omega
  | ellipse =>
    simp only [calculateShapeBounds, Option.some.injEq] at hb
    simp only [testPoint, testEllipse] at hin
    split at hin
    · simp at hin
    · cases h0 : val cs 0 pageW with
      | error e => simp [h0, bind, Except.bind] at hb
      | ok cx =>
        cases h1 : val cs 1 pageH with
        | error e => simp [h0, h1, bind, Except.bind] at hin
        | ok cy =>
          cases h2 : val cs 2 pageW with
          | error e => simp [h0, h2, bind, Except.bind] at hb
          | ok rx =>
            cases h3 : val cs 3 pageH with
            | error e => simp [h0, h1, h2, h3, bind, Except.bind] at hb
            | ok ry =>
              have hx0 := (he rfl).1 rx h2
              have hy0 := (he rfl).2 ry h3
              simp [h0, h1, h2, h3, bind, Except.bind, pure, Except.pure] at hb hin
              obtain ⟨hb1, hb2, hb3, hb4⟩ := hb
              generalize hdx : x - cx = dx at hin
              generalize hdy : y - cy = dy at hin
              have p1 : 0 < rx * rx := by positivity
              have p2 : 0 < ry * ry := by positivity
              have n1 : 0 ≤ dx * dx * (ry * ry) := mul_nonneg (mul_self_nonneg dx) (le_of_lt p2)
              have n2 : 0 ≤ dy * dy * (rx * rx) := mul_nonneg (mul_self_nonneg dy) (le_of_lt p1)
              have hx : dx * dx ≤ rx * rx := by
                have : dx * dx * (ry * ry) ≤ rx * rx * (ry * ry) := by nlinarith
                exact le_of_mul_le_mul_right this p2
              have hy : dy * dy ≤ ry * ry := by
                have : dy * dy * (rx * rx) ≤ ry * ry * (rx * rx) := by nlinarith
                exact le_of_mul_le_mul_right this p1
              have := sq_le (le_of_lt hx0) hx
              have := sq_le (le_of_lt hy0) hy
              omega
  | rect =>
    simp only [calculateShapeBounds, Option.some.injEq] at hb
    simp only [testPoint, testRect] at hin
    split at hin
    · simp at hin
    · cases h0 : val cs 0 pageW with
      | error e => simp [h0, bind, Except.bind] at hb
      | ok x0 =>
        cases h1 : val cs 1 pageH with
        | error e => simp [h0, h1, bind, Except.bind] at hb
        | ok y0 =>
          cases h2 : val cs 2 pageW with
          | error e => simp [h0, h1, h2, bind, Except.bind] at hb
          | ok x1 =>
            cases h3 : val cs 3 pageH with
            | error e => simp [h0, h1, h2, h3, bind, Except.bind] at hb
            | ok y1 =>
              obtain ⟨o1, o2⟩ := hr rfl _ _ _ _ h0 h2 h1 h3
              have g1 : ¬ (x0 > x1) := by omega
              have g2 : ¬ (y0 > y1) := by omega
              simp only [h0, h1, h2, h3, g1, g2, bind, Except.bind, pure, Except.pure, if_false, Except.ok.injEq,
                Prod.mk.injEq] at hb hin
              obtain ⟨hb1, hb2, hb3, hb4⟩ := hb
              split at hin
              · simp at hin
              · split at hin
                · simp at hin
                · omega

example : calculateShapeBounds 0 .ellipse [.percent 50, .pixel 100, .pixel 30, .percent 10] =
      some (.ok (482, 23, 542, 177)) ∧
    testPoint .ellipse [.percent 50, .pixel 100, .pixel 30, .percent 10] 520 90 pageW pageH = .ok true := by
  decide +kernel

theorem polyBoundsLoop_none (cs : List Len) (i : Nat) (h : 2 * i + 1 < cs.length) :
    ∀ (fuel : Nat) (o : Int × Int × Int × Int), polyBoundsLoop cs i fuel o = none := by
  intro fuel
  induction fuel with
  | zero => intro o; rfl
  | succ n ih =>
    intro o
    rw [polyBoundsLoop, if_pos h]
    have hb : ∃ o', polyBoundsBody cs i o = .ok o' := by
      obtain ⟨vx, hx⟩ := get_some 1024 cs[2 * i]
      obtain ⟨vy, hy⟩ := get_some 768 cs[2 * i + 1]
      have e1 : val cs (2 * i) (some 1024) = .ok vx := by
        simp [val, at?, List.getElem?_eq_getElem (show 2 * i < cs.length by omega), hx, bind, Except.bind]
      have e2 : val cs (2 * i + 1) (some 768) = .ok vy := by
        simp [val, at?, List.getElem?_eq_getElem h, hy, bind, Except.bind]
      exact ⟨_, by simp only [polyBoundsBody, e1, e2, bind, Except.bind, pure, Except.pure]; rfl⟩
    obtain ⟨o', ho⟩ := hb
    simp only [ho]
    exact ih o'

/-- **C42 refuted (bounding box of a polygon).**  For every polygon with at least two corners the computation of the
bounding box never finishes: it is still running after any number of loop iterations. -/
theorem polygon_bounds_never_finish (cs : List Len) (h : 4 ≤ cs.length) (fuel : Nat) :
    calculateShapeBounds fuel .poly cs = none := by
  obtain ⟨vx, hx⟩ := get_some 1024 cs[0]
  obtain ⟨vy, hy⟩ := get_some 768 cs[1]
  have e1 : val cs 0 (some 1024) = .ok vx := by
    simp [val, at?, List.getElem?_eq_getElem (show 0 < cs.length by omega), hx, bind, Except.bind]
  have e2 : val cs 1 (some 768) = .ok vy := by
    simp [val, at?, List.getElem?_eq_getElem (show 1 < cs.length by omega), hy, bind, Except.bind]
  simp only [calculateShapeBounds, e1, e2, bind, Except.bind, pure, Except.pure]
  exact polyBoundsLoop_none cs 1 (by omega) fuel _

/-- **C42 refuted (rectangle given by other corners).**  The area accepts points outside the computed box when the
corners are not given as top-left and bottom-right. -/
theorem swapped_rectangle_box :
    calculateShapeBounds 0 .rect [.pixel 50, .pixel 50, .pixel 10, .pixel 10] = some (.ok (50, 50, 10, 10)) ∧
    testPoint .rect [.pixel 50, .pixel 50, .pixel 10, .pixel 10] 20 20 pageW pageH = .ok true := by
  decide +kernel

/-- **C42 (offset, guarded).**  For every area other than a polygon with pixel coordinates, moving it succeeds without
running a loop, and the moved area accepts a point exactly when the original accepts the point moved back; the default
area does not move. -/
theorem offset_moves_area_partial (shape : Shape) (a b c d : Int) (rest : List Len) (xo yo : Int) (fuel : Nat)
    (h : shape ≠ .poly) (hd : shape ≠ .default) :
    ∃ cs', offsetShape fuel shape (.pixel a :: .pixel b :: .pixel c :: .pixel d :: rest) xo yo = some (.ok cs') ∧
      ∀ x y, testPoint shape cs' (x - xo) (y - yo) none none =
        testPoint shape (.pixel a :: .pixel b :: .pixel c :: .pixel d :: rest) x y none none := by
  cases shape with
  | poly => exact absurd rfl h
  | default => exact absurd rfl hd
  | circle =>
    refine ⟨.pixel (a + -xo) :: .pixel (b + -yo) :: .pixel c :: .pixel d :: rest,
      by simp [offsetShape, addAt, at?, Len.add, bind, Except.bind], fun x y => ?_⟩
    simp only [testPoint, testCircle_pixels]
    rw [show x - xo - (a + -xo) = x - a by omega, show y - yo - (b + -yo) = y - b by omega]
  | ellipse =>
    refine ⟨.pixel (a + -xo) :: .pixel (b + -yo) :: .pixel c :: .pixel d :: rest,
      by simp [offsetShape, addAt, at?, Len.add, bind, Except.bind], fun x y => ?_⟩
    simp only [testPoint, testEllipse_pixels]
    rw [show x - xo - (a + -xo) = x - a by omega, show y - yo - (b + -yo) = y - b by omega]
  | rect =>
    refine ⟨.pixel (a + -xo) :: .pixel (b + -yo) :: .pixel (c + -xo) :: .pixel (d + -yo) :: rest,
      by simp [offsetShape, addAt, at?, Len.add, bind, Except.bind], fun x y => ?_⟩
    simp only [testPoint, testRect_pixels]
    congr 2
    apply propext
    omega

theorem offsetPolyLoop_none (xo yo : Int) : ∀ (fuel : Nat) (a b : Int) (rest : List Len),
    offsetPolyLoop xo yo 0 fuel (.pixel a :: .pixel b :: rest) = none := by
  intro fuel
  induction fuel with
  | zero => intro a b rest; rfl
  | succ n ih =>
    intro a b rest
    rw [offsetPolyLoop, if_pos (by simp)]
    simp only [addAt, at?, Len.add, bind, Except.bind, Nat.mul_zero, Nat.zero_add, List.getElem?_cons_zero,
      List.getElem?_cons_succ, List.set_cons_zero, List.set_cons_succ]
    exact ih _ _ _

/-- **C42 refuted (offset of a polygon).**  Moving any polygon whose first corner is given in pixels never finishes. -/
theorem polygon_offset_never_finishes (a b : Int) (rest : List Len) (xo yo : Int) (fuel : Nat) :
    offsetShape fuel .poly (.pixel a :: .pixel b :: rest) xo yo = none :=
  offsetPolyLoop_none xo yo fuel a b rest

/-! ## C43: polygon hit testing is the even-odd rule -/

theorem crosses_iff (x y : Int) (p q : Int × Int) : crosses x y p q = true ↔ RayCrosses x y p q := by
  -- the ordered case
  have key : ∀ p q : Int × Int, p.2 < q.2 →
      ((if y < p.2 ∨ y ≥ q.2 then false
        else if y = p.2 then decide (x ≥ p.1)
        else if x < p.1 ∧ x < q.1 then false
        else decide (((y - p.2 : Int) : Rat) * ((q.1 - p.1 : Int) : Rat) / ((q.2 - p.2 : Int) : Rat) + (p.1 : Rat)
          ≤ (x : Rat))) = true ↔ RayCrosses x y p q) := by
    intro p q hpq
    have hpq' : (0 : Rat) < (q.2 : Rat) - p.2 := by
      have : (p.2 : Rat) < q.2 := by exact_mod_cast hpq
      linarith
    -- the only possible crossing point
    have hX : ∀ X : Rat, (X - p.1) * ((q.2 : Rat) - p.2) = ((y : Rat) - p.2) * ((q.1 : Rat) - p.1) ↔
        X = ((y : Rat) - p.2) * ((q.1 : Rat) - p.1) / ((q.2 : Rat) - p.2) + p.1 := by
      intro X
      rw [← eq_div_iff (ne_of_gt hpq')]
      constructor <;> intro h <;> linarith
    have hR : RayCrosses x y p q ↔ (p.2 ≤ y ∧ y < q.2) ∧
        ((y : Rat) - p.2) * ((q.1 : Rat) - p.1) / ((q.2 : Rat) - p.2) + p.1 ≤ x := by
      unfold RayCrosses
      constructor
      · rintro ⟨h1, X, h2, h3⟩
        refine ⟨by omega, ?_⟩
        rw [← (hX X).1 h2]; exact h3
      · rintro ⟨h1, h2⟩
        exact ⟨Or.inl h1, _, (hX _).2 rfl, h2⟩
    rw [hR]
    by_cases h1 : y < p.2 ∨ y ≥ q.2
    · simp only [h1, if_true, Bool.false_eq_true, false_iff]
      intro h; omega
    · simp only [h1, if_false]
      have hy : p.2 ≤ y ∧ y < q.2 := by omega
      by_cases h2 : y = p.2
      · simp only [h2, if_true, decide_eq_true_eq]
        constructor
        · intro h
          refine ⟨by omega, ?_⟩
          have : (p.1 : Rat) ≤ x := by exact_mod_cast h
          simpa using this
        · rintro ⟨_, h⟩
          have : (p.1 : Rat) ≤ x := by simpa using h
          exact_mod_cast this
      · simp only [h2, if_false]
        by_cases h3 : x < p.1 ∧ x < q.1
        · simp only [h3, and_self, if_true, Bool.false_eq_true, false_iff]
          rintro ⟨_, h⟩
          have a1 : (x : Rat) < p.1 := by exact_mod_cast h3.1
          have a2 : (x : Rat) < q.1 := by exact_mod_cast h3.2
          have a3 : (p.2 : Rat) ≤ y := by exact_mod_cast hy.1
          have a4 : (y : Rat) < q.2 := by exact_mod_cast hy.2
          have h' : ((y : Rat) - p.2) * ((q.1 : Rat) - p.1) / ((q.2 : Rat) - p.2) ≤ x - p.1 := by linarith
          rw [div_le_iff₀ hpq'] at h'
          nlinarith
        · simp only [h3, if_false, decide_eq_true_eq]
          push_cast
          constructor
          · intro h; exact ⟨hy, h⟩
          · intro h; exact h.2
  have symm : RayCrosses x y q p ↔ RayCrosses x y p q := by
    unfold RayCrosses
    constructor <;> rintro ⟨h1, X, h2, h3⟩ <;> refine ⟨by omega, X, ?_, h3⟩ <;> linarith
  unfold crosses
  by_cases h : p.2 = q.2
  · simp only [h, if_true, Bool.false_eq_true, false_iff]
    rintro ⟨h1, _⟩
    omega
  · simp only [h, if_false]
    by_cases h' : p.2 > q.2
    · simp only [h', if_true]
      exact (key q p h').trans symm
    · simp only [h', if_false]
      exact key p q (by omega)

/-- The corners of a polygon given by a list of pixel coordinates. -/
def corners : List Int → List (Int × Int)
  | a :: b :: t => (a, b) :: corners t
  | _ => []

theorem vertices_pixels (w h : Option Int) : ∀ cs : List Int,
    vertices w h (cs.map Len.pixel) = .ok (corners cs)
  | [] => rfl
  | [_] => rfl
  | a :: b :: t => by
    simp [vertices, corners, Len.get, vertices_pixels w h t, bind, Except.bind, pure, Except.pure]

open Classical in
theorem crossings_zip (x y : Int) : ∀ (v : Int × Int) (t : List (Int × Int)),
    crossings x y (v :: t) = (((v :: t).zip t).filter fun e => decide (RayCrosses x y e.1 e.2)).length
  | _, [] => by simp [crossings]
  | p, q :: t => by
    rw [crossings, crossings_zip x y q t, List.zip_cons_cons, List.filter_cons]
    by_cases h : RayCrosses x y p q
    · simp [h, (crosses_iff x y p q).2 h]; omega
    · have : crosses x y p q = false := by
        rw [← Bool.not_eq_true, crosses_iff]; exact h
      simp [h, this]

/-- A degenerate edge is never crossed. -/
theorem not_crosses_self (x y : Int) (p : Int × Int) : ¬ RayCrosses x y p p := by
  rintro ⟨h, _⟩; omega

theorem zip_snoc {α} : ∀ (v w : α) (t : List α), (v :: t).getLast? = some w →
    (v :: t).zip (t ++ [v]) = (v :: t).zip t ++ [(w, v)] := by
  suffices ∀ (u v w : α) (t : List α), (v :: t).getLast? = some w →
      (v :: t).zip (t ++ [u]) = (v :: t).zip t ++ [(w, u)] from fun v => this v v
  intro u v w t
  induction t generalizing v with
  | nil => intro h; simp at h; simp [h]
  | cons a t ih =>
    intro h
    rw [List.getLast?_cons_cons] at h
    simp only [List.cons_append, List.zip_cons_cons]
    rw [ih a h]

/-- **C43.**  For every polygon with an even number of at least six pixel coordinates, whether or not the last corner
repeats the first, the hit test answers exactly what the even-odd rule says. -/
theorem polygon_even_odd (cs : List Int) (h6 : 6 ≤ cs.length) (he : cs.length % 2 = 0) (x y : Int) (w h : Option Int) :
    ∃ b, testPoly (cs.map Len.pixel) x y w h = .ok b ∧ (b = true ↔ EvenOddInside (corners cs) x y) := by
  classical
  obtain ⟨v, t, hvt⟩ : ∃ v t, corners cs = v :: t := by
    match cs, h6 with
    | a :: b :: t, _ => exact ⟨_, _, rfl⟩
  unfold testPoly
  rw [if_neg (by simpa using h6), if_neg (by simp; omega), vertices_pixels, hvt]
  refine ⟨_, rfl, ?_⟩
  obtain ⟨l, hl⟩ : ∃ l, (v :: t).getLast? = some l := ⟨_, List.getLast?_eq_some_getLast (by simp)⟩
  have hz := zip_snoc v l t hl
  unfold EvenOddInside edges
  simp only [hz, hl, Option.some.injEq]
  rw [List.filter_append, List.length_append]
  by_cases hlv : l = v
  · subst hlv
    simp only [if_true, crossings_zip]
    rw [List.filter_cons]
    simp [not_crosses_self]
  · simp only [hlv, if_false]
    rw [List.cons_append, crossings_zip]
    have e : (v :: (t ++ [v])).zip (t ++ [v]) = (v :: t).zip (t ++ [v]) := by
      rw [← List.cons_append]
      conv => lhs; rw [← List.append_nil (t ++ [v])]
      rw [List.zip_append (by simp)]
      simp
    rw [e, hz, List.filter_append, List.length_append]
    simp

example : testPoly ([0, 0, 10, 0, 10, 10, 5, 2, 0, 10].map Len.pixel) 5 1 none none = .ok true ∧
    testPoly ([0, 0, 10, 0, 10, 10, 5, 2, 0, 10].map Len.pixel) 5 6 none none = .ok false := by
  decide +kernel

/-- A rectangle written as a polygon is hit exactly where the rectangle itself is. -/
theorem polygon_rectangle (a b c d : Int) (hac : a < c) (hbd : b < d) (x y : Int) (w h : Option Int) :
    testPoly ([a, b, c, b, c, d, a, d].map Len.pixel) x y w h =
      testRect ([a, b, c, d].map Len.pixel) x y w h := by
  have r := testRect_pixels a b c d [] x y w h
  rw [show ([a, b, c, d].map Len.pixel) = [.pixel a, .pixel b, .pixel c, .pixel d] from rfl, r]
  unfold testPoly
  rw [vertices_pixels]
  have hv : corners [a, b, c, b, c, d, a, d] = [(a, b), (c, b), (c, d), (a, d)] := rfl
  have hne : ((a, d) : Int × Int) ≠ (a, b) := by simp; omega
  rw [hv, if_neg (by simp), if_neg (by simp)]
  simp only [bind, Except.bind, List.getLast?_cons_cons, List.getLast?_singleton, Option.some.injEq, hne, if_false,
    List.cons_append, List.nil_append, crossings, pure, Except.pure]
  have e1 : crosses x y (a, b) (c, b) = false := by simp [crosses]
  have e3 : crosses x y (c, d) (a, d) = false := by simp [crosses]
  have hline : ∀ u : Int, crosses x y (u, b) (u, d) = decide (b ≤ y ∧ y < d ∧ u ≤ x) := by
    intro u
    rw [Bool.eq_iff_iff, crosses_iff, decide_eq_true_eq]
    unfold RayCrosses
    constructor
    · rintro ⟨h1, X, h2, h3⟩
      refine ⟨by omega, by omega, ?_⟩
      have hd : (0 : Rat) < (d : Rat) - b := by
        have : (b : Rat) < d := by exact_mod_cast hbd
        linarith
      have hz : (X - u) * ((d : Rat) - b) = 0 := by simpa using h2
      rcases mul_eq_zero.1 hz with h | h
      · have : (u : Rat) ≤ x := by linarith
        exact_mod_cast this
      · linarith
    · rintro ⟨h1, h2, h3⟩
      refine ⟨Or.inl ⟨h1, h2⟩, (u : Rat), by simp, by exact_mod_cast h3⟩
  have hsym : crosses x y (a, d) (a, b) = crosses x y (a, b) (a, d) := by
    have g1 : ¬ b > d := by omega
    have g2 : d > b := by omega
    have g3 : d ≠ b := by omega
    have g4 : b ≠ d := by omega
    simp [crosses, g1, g2, g3, g4]
  rw [e1, e3, hsym, hline, hline]
  have m1 : min a c = a := by omega
  have m2 : max a c = c := by omega
  have m3 : min b d = b := by omega
  have m4 : max b d = d := by omega
  rw [m1, m2, m3, m4]
  by_cases k1 : b ≤ y ∧ y < d <;> by_cases k2 : a ≤ x <;> by_cases k3 : c ≤ x <;> simp [k1, k2, k3] <;> omega

end Verif.Props
