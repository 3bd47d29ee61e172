import Verif.Props.Shapes
import Verif.Props.XsdText
import Verif.Model.PyMigrate

/-!
# The library's conversion of areas
-/

namespace Verif.Props

open Verif Verif.Shapes Verif.Spec.Shapes

set_option linter.unusedVariables false

/-! ## Numbers -/

/-- The whole parts of the numbers in the fields. -/
def readWhole (fs : List Str) : Except Err (List Int) := (fs.filter (· ≠ [])).mapM PyMig.wholePart

theorem readWhole_nil_cons (fs : List Str) : readWhole ([] :: fs) = readWhole fs := by simp [readWhole]

theorem readWhole_cons (f : Str) (hf : f ≠ []) (fs : List Str) :
    readWhole (f :: fs) = PyMig.wholePart f >>= fun n => readWhole fs >>= fun ns => .ok (n :: ns) := by
  simp [readWhole, hf, List.mapM_cons]
  rfl

theorem py_areaNums_eq (s : Str) : ∀ (coords : List Int) (v : Str),
    v ≠ [] →
    (PyMig.areaNums s coords v false =
      (match splitAtNon isNumChar s with
       | f :: fs => readWhole ((v ++ f) :: fs) >>= fun ns => .ok (coords ++ ns)
       | [] => .ok coords)) ∧
    (PyMig.areaNums s coords v true =
      (readWhole (v :: splitAtNon isNumChar s) >>= fun ns => .ok (coords ++ ns))) := by
  induction s with
  | nil =>
    intro coords v hv
    simp only [PyMig.areaNums, splitAtNon, List.append_nil]
    rw [readWhole_cons v hv, readWhole_cons v hv]
    simp only [hv, ne_eq, not_false_eq_true, if_true, readWhole_nil_cons]
    constructor <;>
    · cases PyMig.wholePart v with
      | error e => rfl
      | ok n => rfl
  | cons c t ih =>
    intro coords v hv
    cases hc : isNumChar c with
    | true =>
      obtain ⟨f, fs, h1, h2⟩ := splitAtNon_cons isNumChar c t hc
      rw [h2]
      constructor
      · rw [PyMig.areaNums]
        simp only [hc, if_true, Bool.false_eq_true, false_and, if_false]
        rw [(ih coords (v ++ [c]) (by simp)).1, h1]
        simp
      · rw [PyMig.areaNums]
        simp only [hc, if_true, hv, ne_eq, not_false_eq_true, and_self]
        rw [readWhole_cons v hv]
        cases PyMig.wholePart v with
        | error e => rfl
        | ok n =>
          show PyMig.areaNums t (coords ++ [n]) [c] false = _
          rw [(ih (coords ++ [n]) [c] (by simp)).1, h1]
          simp only [List.cons_append, List.nil_append]
          show _ = (readWhole ((c :: f) :: fs) >>= fun ns => Except.ok (n :: ns)) >>= fun ns => Except.ok (coords ++ ns)
          cases readWhole ((c :: f) :: fs) with
          | error e => rfl
          | ok ns => show Except.ok (coords ++ [n] ++ ns) = Except.ok (coords ++ n :: ns); simp
    | false =>
      rw [splitAtNon_sep _ _ _ hc]
      constructor
      · rw [PyMig.areaNums]
        simp only [hc, Bool.false_eq_true, if_false]
        rw [(ih coords v hv).2]
        simp
      · rw [PyMig.areaNums]
        simp only [hc, Bool.false_eq_true, if_false]
        rw [(ih coords v hv).2]
        rw [readWhole_cons v hv, readWhole_cons v hv, readWhole_nil_cons]

/-- The numbers of a text: each maximal run of digits and points is one, of which the whole part counts. -/
inductive AreaNumbers : List Str → List Int → Prop where
  | nil : AreaNumbers [] []
  | cons {f fs q ns} : Spec.UnsignedText f q → AreaNumbers fs ns → AreaNumbers (f :: fs) (q.floor :: ns)

theorem wholePart_read (f : Str) (n : Int) : PyMig.wholePart f = .ok n ↔ ∃ q, Spec.UnsignedText f q ∧ n = q.floor := by
  unfold PyMig.wholePart
  constructor
  · intro h
    cases hq : Xsd.pyUnsigned f with
    | error e => rw [hq] at h; cases h
    | ok q =>
      rw [hq] at h
      cases h
      exact ⟨q, (unsigned_read f q).mp hq, rfl⟩
  · rintro ⟨q, hq, rfl⟩
    rw [(unsigned_read f q).mpr hq]
    rfl

theorem mapM_areaNumbers : ∀ (fs : List Str) (ns : List Int),
    fs.mapM PyMig.wholePart = .ok ns ↔ AreaNumbers fs ns
  | [], ns => by
    constructor
    · intro h; cases h; exact .nil
    · intro h; cases h; rfl
  | f :: fs, ns => by
    rw [List.mapM_cons]
    constructor
    · intro h
      cases hf : PyMig.wholePart f with
      | error e => rw [hf] at h; cases h
      | ok n =>
        rw [hf] at h
        cases hr : fs.mapM PyMig.wholePart with
        | error e => rw [hr] at h; cases h
        | ok ms =>
          rw [hr] at h
          cases h
          obtain ⟨q, hq, rfl⟩ := (wholePart_read f n).mp hf
          exact .cons hq ((mapM_areaNumbers fs ms).mp hr)
    · intro h
      cases h with
      | @cons _ _ q ms hq hr =>
        rw [(wholePart_read f _).mpr ⟨q, hq, rfl⟩, (mapM_areaNumbers fs ms).mpr hr]
        rfl

/-- **Numbers of an area (guarded).** If the text starts with a digit or a point, or is empty, the numbers read are
exactly the whole parts of the numbers in it, in order, whatever the separators; if one of the runs of digits and points
is not a number, conversion fails. -/
theorem py_area_numbers_partial (s : Str) (h : ∀ c ∈ s.head?, isNumChar c = true) (ns : List Int) :
    PyMig.areaNums s [] [] false = .ok ns ↔ AreaNumbers (fields isNumChar s) ns := by
  rw [← mapM_areaNumbers]
  have : PyMig.areaNums s [] [] false = (fields isNumChar s).mapM PyMig.wholePart := by
    cases s with
    | nil => rfl
    | cons c t =>
      have hc : isNumChar c = true := h c (by simp)
      obtain ⟨f, fs, h1, h2⟩ := splitAtNon_cons isNumChar c t hc
      rw [PyMig.areaNums]
      simp only [hc, if_true, Bool.false_eq_true, false_and, if_false, List.nil_append]
      rw [(py_areaNums_eq t [] [c] (by simp)).1, h1]
      show _ = readWhole (splitAtNon isNumChar (c :: t))
      rw [h2]
      simp only [List.cons_append, List.nil_append]
      cases readWhole ((c :: f) :: fs) <;> rfl
  rw [this]

/-- Numbers with a fraction, and separators of several kinds. -/
example : PyMig.areaNums "12.5,34; 5  6".toList [] [] false = .ok [12, 34, 5, 6] := by decide +kernel

/-- **Refuted.** After a leading separator the first number is torn apart, and signs are lost. -/
theorem py_area_numbers_refuted :
    PyMig.areaNums " 12,34,5,6".toList [] [] false = .ok [1, 2, 34, 5, 6] ∧
    PyMig.areaNums "10,-20".toList [] [] false = .ok [10, 20] := by
  decide +kernel

/-! ## Regions -/

/-- **Rectangles (exact behaviour).** A rectangle of `h` rows and `w` columns is converted to one without its last row
and its last column. -/
theorem py_rectangle_region_partial (s : Str) (x y h w : Int) (rest : List Int) (hw : 1 ≤ w) (hh : 1 ≤ h)
    (hs : PyMig.areaNums s [] [] false = .ok (x :: y :: h :: w :: rest)) :
    ∃ a, PyMig.areaCoords (some .rect) s = .ok a ∧ ∀ px py, ∃ b, covered a px py = .ok b ∧
      (b = true ↔ InRect x y (w - 1) (h - 1) px py) := by
  refine ⟨(.rect, [x, y, x + w - 1, y + h - 1]), ?_, ?_⟩
  · simp [PyMig.areaCoords, hs, bind, Except.bind, padTo4]
  · intro px py
    refine ⟨_, testRect_pixels x y (x + w - 1) (y + h - 1) [] px py none none, ?_⟩
    rw [decide_eq_true_eq, InRect]
    omega

/-- **Ellipses and circles (guarded).** For even positive diameters the converted area covers exactly the points of the
source ellipse. -/
theorem py_ellipse_region_partial (s : Str) (x y rx ry : Int) (rest : List Int) (hx : 1 ≤ rx) (hy : 1 ≤ ry)
    (hs : PyMig.areaNums s [] [] false = .ok (x :: y :: 2 * rx :: 2 * ry :: rest)) :
    ∃ a, PyMig.areaCoords (some .ellipse) s = .ok a ∧ ∀ px py, ∃ b, covered a px py = .ok b ∧
      (b = true ↔ InEllipse x y (2 * rx) (2 * ry) px py) := by
  have e1 : Int.fdiv (2 * rx) 2 = rx := by rw [Int.mul_comm]; exact Int.mul_fdiv_cancel rx (by omega)
  have e2 : Int.fdiv (2 * ry) 2 = ry := by rw [Int.mul_comm]; exact Int.mul_fdiv_cancel ry (by omega)
  by_cases hr : rx = ry
  · subst hr
    refine ⟨(.circle, [x, y, rx]), ?_, fun px py => ⟨_, testCircle_pixels x y rx [] px py none none, ?_⟩⟩
    · simp [PyMig.areaCoords, hs, bind, Except.bind, e1]
    · rw [decide_eq_true_eq, InEllipse]
      generalize px - x = dx
      generalize py - y = dy
      have hp : 0 < 16 * (rx * rx) := by positivity
      have l : 4 * dx * dx * (2 * rx * (2 * rx)) + 4 * dy * dy * (2 * rx * (2 * rx)) =
          16 * (rx * rx) * (dx * dx + dy * dy) := by ring
      have r : 2 * rx * (2 * rx) * (2 * rx * (2 * rx)) = 16 * (rx * rx) * (rx * rx) := by ring
      rw [l, r]
      exact (Int.mul_le_mul_left hp).symm
  · refine ⟨(.ellipse, [x, y, rx, ry]), ?_, fun px py => ⟨_, testEllipse_pixels x y rx ry [] px py none none, ?_⟩⟩
    · have : ¬ (2 * rx = 2 * ry) := by omega
      simp [PyMig.areaCoords, hs, bind, Except.bind, e1, e2, this]
    · rw [decide_eq_true_eq, InEllipse]
      generalize px - x = dx
      generalize py - y = dy
      have l : 4 * dx * dx * (2 * ry * (2 * ry)) + 4 * dy * dy * (2 * rx * (2 * rx)) =
          16 * (dx * dx * ry * ry + dy * dy * rx * rx) := by ring
      have r : 2 * rx * (2 * rx) * (2 * ry * (2 * ry)) = 16 * (rx * rx * ry * ry) := by ring
      rw [l, r]
      exact (Int.mul_le_mul_left (by omega)).symm

/-- **Polygons.** The corners of a bounded area are kept, in order. -/
theorem py_bounded_kept (s : Str) (ns : List Int) (hs : PyMig.areaNums s [] [] false = .ok ns) :
    PyMig.areaCoords (some .bounded) s = .ok (.poly, ns) := by
  simp [PyMig.areaCoords, hs, bind, Except.bind]

example : PyMig.areaNums "10 20 4 8".toList [] [] false = .ok [10, 20, 2 * 2, 2 * 4] := by decide +kernel

/-- **Refuted (region).** Every rectangle loses pixels: its last row and last column. -/
theorem py_rectangle_region_refuted (s : Str) (x y h w : Int) (rest : List Int) (hw : 1 ≤ w) (hh : 1 ≤ h)
    (hs : PyMig.areaNums s [] [] false = .ok (x :: y :: h :: w :: rest)) :
    ∃ a, PyMig.areaCoords (some .rect) s = .ok a ∧
      InRect x y w h (x + w - 1) (y + h - 1) ∧ covered a (x + w - 1) (y + h - 1) = .ok false := by
  obtain ⟨a, ha, hc⟩ := py_rectangle_region_partial s x y h w rest hw hh hs
  refine ⟨a, ha, ?_, ?_⟩
  · unfold InRect; omega
  · obtain ⟨b, hb, hi⟩ := hc (x + w - 1) (y + h - 1)
    rw [hb]
    cases b with
    | false => rfl
    | true =>
      have := hi.mp rfl
      unfold InRect at this
      omega

/-- **Refuted (missing numbers).** An ellipse with fewer than four numbers, which is meant to be completed, is an error,
whatever the text. -/
theorem py_ellipse_incomplete_fails (s : Str) (ns : List Int) (hs : PyMig.areaNums s [] [] false = .ok ns)
    (hl : ns.length < 4) : PyMig.areaCoords (some .ellipse) s = .error .nameError := by
  match ns, hl with
  | [], _ => simp [PyMig.areaCoords, hs, bind, Except.bind]
  | [_], _ => simp [PyMig.areaCoords, hs, bind, Except.bind]
  | [_, _], _ => simp [PyMig.areaCoords, hs, bind, Except.bind]
  | [_, _, _], _ => simp [PyMig.areaCoords, hs, bind, Except.bind]
  | _ :: _ :: _ :: _ :: _, h => simp at h; omega

example : PyMig.areaNums "10,20".toList [] [] false = .ok [10, 20] := by decide +kernel

/-- **Refuted (no area given).** A region whose area is not given, and so an ellipse, becomes a polygon with the same
numbers as corners, whatever the text. -/
theorem py_default_area_refuted (s : Str) (ns : List Int) (hs : PyMig.areaNums s [] [] false = .ok ns) :
    PyMig.areaCoords none s = .ok (.poly, ns) := by
  simp [PyMig.areaCoords, hs, bind, Except.bind]

end Verif.Props
