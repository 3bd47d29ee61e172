import Verif.Model.Py

/-!
# Specification of the area and geometry properties

Nothing here refers to the modelled code.
-/

namespace Verif.Spec.Shapes

/-- Split a text at every character that does not satisfy `p`. -/
def splitAtNon (p : Char → Bool) : Str → List Str
  | [] => [[]]
  | c :: t =>
    if p c then
      match splitAtNon p t with
      | f :: fs => (c :: f) :: fs
      | [] => [[c]]
    else [] :: splitAtNon p t

/-- The fields of a text: the maximal runs of characters satisfying `p`, in order. -/
def fields (p : Char → Bool) (s : Str) : List Str := (splitAtNon p s).filter (· ≠ [])

/-- The pixels of a rectangle whose top-left pixel is `(x, y)` and that is `w` pixels wide and `h` high. -/
def InRect (x y w h px py : Int) : Prop := x ≤ px ∧ px < x + w ∧ y ≤ py ∧ py < y + h

/-- The points of an ellipse centred at `(x, y)` of width `w` and height `h`:
`((px-x)/(w/2))² + ((py-y)/(h/2))² ≤ 1`, cleared of denominators. -/
def InEllipse (x y w h px py : Int) : Prop :=
  4 * (px - x) * (px - x) * (h * h) + 4 * (py - y) * (py - y) * (w * w) ≤ (w * w) * (h * h)

/-- The horizontal ray going left from `(x, y)` crosses the edge from `p` to `q`: one end is above or at the ray, the
other strictly below it, and the point of the edge at height `y` is not to the right of `x`.  (Ends are treated
half-open so that a ray through a vertex is counted once.) -/
def RayCrosses (x y : Int) (p q : Int × Int) : Prop :=
  ((p.2 ≤ y ∧ y < q.2) ∨ (q.2 ≤ y ∧ y < p.2)) ∧
  ∃ X : Rat, (X - p.1) * ((q.2 : Rat) - p.2) = ((y : Rat) - p.2) * ((q.1 : Rat) - p.1) ∧ X ≤ x

/-- The edges of a closed polygon given by its corners. -/
def edges (vs : List (Int × Int)) : List ((Int × Int) × (Int × Int)) :=
  match vs with
  | [] => []
  | v :: t => vs.zip (t ++ [v])

open Classical in
/-- The even-odd rule: a point is inside when a ray from it crosses an odd number of edges. -/
def EvenOddInside (vs : List (Int × Int)) (x y : Int) : Prop :=
  ((edges vs).filter fun e => decide (RayCrosses x y e.1 e.2)).length % 2 = 1

end Verif.Spec.Shapes
