import Verif.Model.Py

/-!
# Shapes and coordinates

`html40_19991224.LengthType`/`Coords` (/repo/pyslet/pyslet/html40_19991224.py:848-1119),
`core.CalculateShapeBounds`, `OffsetShape`, `ShapeElementMixin` (/repo/pyslet/pyslet/qtiv2/core.py:134-235) and
the area conversion of the migration tool (/repo/QTIMigration/lib/imsqtiv1.py:172-210).
-/

namespace Verif.Shapes

open Verif

/-- `LengthType` (html40_19991224.py:848-900). -/
inductive Len where
  | pixel (v : Int)
  | percent (v : Int)
deriving DecidableEq, Repr

/-- `LengthType.GetValue(dim)` (html40_19991224.py:923-933); Python's `//` rounds down. -/
def Len.get (dim : Option Int) : Len → Except Err Int
  | .pixel v => .ok v
  | .percent v =>
    match dim with
    | none => .error .valueError
    | some d => .ok (Int.fdiv (v * d + 50) 100)

/-- `LengthType.Add(value)` for an integer (html40_19991224.py:935-950). -/
def Len.add (n : Int) : Len → Except Err Len
  | .pixel v => .ok (.pixel (v + n))
  | .percent _ => .error .valueError

/-- `self.values[i]`. -/
def at? (cs : List Len) (i : Nat) : Except Err Len :=
  match cs[i]? with
  | some l => .ok l
  | none => .error .indexError

/-- `coords[i].GetValue(dim)`. -/
def val (cs : List Len) (i : Nat) (dim : Option Int) : Except Err Int := at? cs i >>= Len.get dim

/-- `Coords.TestRect` (html40_19991224.py:1012-1031). -/
def testRect (cs : List Len) (x y : Int) (width height : Option Int) : Except Err Bool :=
  if cs.length < 4 then .error .valueError else do
    let x0 ← val cs 0 width
    let y0 ← val cs 1 height
    let x1 ← val cs 2 width
    let y1 ← val cs 3 height
    let (x0, x1) := if x0 > x1 then (x1, x0) else (x0, x1)
    let (y0, y1) := if y0 > y1 then (y1, y0) else (y0, y1)
    if x < x0 ∨ y < y0 then return false
    if x ≥ x1 ∨ y ≥ y1 then return false
    return true

/-- Python 2 `width<height` where `None` is smaller than every number. -/
def optLt : Option Int → Option Int → Bool
  | none, none => false
  | none, some _ => true
  | some _, none => false
  | some a, some b => a < b

/-- `Coords.TestCircle` (html40_19991224.py:1033-1052). -/
def testCircle (cs : List Len) (x y : Int) (width height : Option Int) : Except Err Bool :=
  if cs.length < 3 then .error .valueError else do
    let rMax := if optLt width height then width else height
    let cx ← val cs 0 width
    let cy ← val cs 1 height
    let r ← val cs 2 rMax
    return decide ((x - cx) * (x - cx) + (y - cy) * (y - cy) ≤ r * r)

/-- `ShapeElementMixin.TestEllipse` (core.py:222-235). -/
def testEllipse (cs : List Len) (x y : Int) (width height : Option Int) : Except Err Bool :=
  if cs.length < 4 then .error .valueError else do
    let cx ← val cs 0 width
    let cy ← val cs 1 height
    let rx ← val cs 2 width
    let ry ← val cs 3 height
    let dx := x - cx
    let dy := y - cy
    return decide (dx * dx * ry * ry + dy * dy * rx * rx ≤ rx * rx * ry * ry)

/-- The vertex list built by `TestPoly` (html40_19991224.py:1074-1084). -/
def vertices (width height : Option Int) : List Len → Except Err (List (Int × Int))
  | lx :: ly :: cs => do
    let x ← lx.get width
    let y ← ly.get height
    let vs ← vertices width height cs
    return (x, y) :: vs
  | _ => .ok []

/-- One edge of the ray casting loop (html40_19991224.py:1091-1113): whether `nCrossings` is incremented.
Floating point arithmetic is modelled by exact rational arithmetic. -/
def crosses (x y : Int) (p q : Int × Int) : Bool :=
  if p.2 = q.2 then false
  else
    let (p, q) := if p.2 > q.2 then (q, p) else (p, q)
    if y < p.2 ∨ y ≥ q.2 then false
    else if y = p.2 then decide (x ≥ p.1)
    else if x < p.1 ∧ x < q.1 then false
    else decide (((y - p.2 : Int) : Rat) * ((q.1 - p.1 : Int) : Rat) / ((q.2 - p.2 : Int) : Rat) + (p.1 : Rat) ≤ (x : Rat))

/-- The loop over `xrange(len(vertex)-1)`. -/
def crossings (x y : Int) : List (Int × Int) → Nat
  | p :: q :: vs => (if crosses x y p q then 1 else 0) + crossings x y (q :: vs)
  | _ => 0

/-- `Coords.TestPoly` (html40_19991224.py:1054-1114). -/
def testPoly (cs : List Len) (x y : Int) (width height : Option Int) : Except Err Bool :=
  if cs.length < 6 then .error .valueError
  else if cs.length % 2 = 1 then .error .valueError
  else do
    let vs ← vertices width height cs
    match vs with
    | [] => return false
    | v :: _ =>
      let vs := if vs.getLast? = some v then vs else vs ++ [v]
      return crossings x y vs % 2 ≠ 0

/-- `core.Shape` (core.py:101-131). -/
inductive Shape where
  | circle | default | ellipse | poly | rect
deriving DecidableEq, Repr

/-- `ShapeElementMixin.TestPoint` (core.py:206-220). -/
def testPoint (shape : Shape) (cs : List Len) (x y : Int) (width height : Option Int) : Except Err Bool :=
  match shape with
  | .circle => testCircle cs x y width height
  | .default => .ok (decide (x ≥ 0 ∧ y ≥ 0) && (match width with | none => true | some w => decide (x ≤ w)) &&
      (match height with | none => true | some h => decide (y ≤ h)))
  | .ellipse => testEllipse cs x y width height
  | .poly => testPoly cs x y width height
  | .rect => testRect cs x y width height

/-- Body of the polygon loop of `CalculateShapeBounds` (core.py:152-162).  The loop variable `i` is not
changed. -/
def polyBoundsBody (cs : List Len) (i : Nat) (o : Int × Int × Int × Int) : Except Err (Int × Int × Int × Int) := do
  let x ← val cs (2 * i) (some 1024)
  let y ← val cs (2 * i + 1) (some 768)
  let (o0, o2) := if x < o.1 then (x, o.2.2.1) else if x > o.2.2.1 then (o.1, x) else (o.1, o.2.2.1)
  let (o1, o3) := if y < o.2.1 then (y, o.2.2.2) else if y > o.2.2.2 then (o.2.1, y) else (o.2.1, o.2.2.2)
  return (o0, o1, o2, o3)

/-- The loop `while 2*i+1<len(coords)` (core.py:152) run for at most `fuel` iterations; `none` means that it has
not finished yet. -/
def polyBoundsLoop (cs : List Len) (i : Nat) : Nat → Int × Int × Int × Int →
    Option (Except Err (Int × Int × Int × Int))
  | 0, _ => none
  | fuel + 1, o =>
    if 2 * i + 1 < cs.length then
      match polyBoundsBody cs i o with
      | .error e => some (.error e)
      | .ok o' => polyBoundsLoop cs i fuel o'
    else some (.ok o)

/-- `CalculateShapeBounds` (core.py:134-169): left, top, right, bottom.  `fuel` bounds the loop iterations;
`none` is "still running". -/
def calculateShapeBounds (fuel : Nat) (shape : Shape) (cs : List Len) :
    Option (Except Err (Int × Int × Int × Int)) :=
  match shape with
  | .circle => some do
      let cx ← val cs 0 (some 1024)
      let r ← val cs 2 (some 768)
      let cy ← val cs 1 (some 768)
      return (cx - r, cy - r, cx + r, cy + r)
  | .default => some (.ok (0, 0, 1024, 768))
  | .ellipse => some do
      let cx ← val cs 0 (some 1024)
      let rx ← val cs 2 (some 1024)
      let cy ← val cs 1 (some 768)
      let ry ← val cs 3 (some 768)
      return (cx - rx, cy - ry, cx + rx, cy + ry)
  | .poly =>
    match (do let x ← val cs 0 (some 1024); let y ← val cs 1 (some 768); return (x, y)) with
    | .error e => some (.error e)
    | .ok (x, y) => polyBoundsLoop cs 1 fuel (x, y, x, y)
  | .rect => some do
      let x0 ← val cs 0 (some 1024)
      let y0 ← val cs 1 (some 768)
      let x1 ← val cs 2 (some 1024)
      let y1 ← val cs 3 (some 768)
      return (x0, y0, x1, y1)

/-- `coords[i].Add(n)` (in place). -/
def addAt (cs : List Len) (i : Nat) (n : Int) : Except Err (List Len) :=
  at? cs i >>= Len.add n >>= fun l => .ok (cs.set i l)

/-- The polygon loop of `OffsetShape` (core.py:184-187): `i` stays 0. -/
def offsetPolyLoop (xo yo : Int) (i : Nat) : Nat → List Len → Option (Except Err (List Len))
  | 0, _ => none
  | fuel + 1, cs =>
    if 2 * i + 1 < cs.length then
      match addAt cs (2 * i) (-xo) >>= fun cs => addAt cs (2 * i + 1) (-yo) with
      | .error e => some (.error e)
      | .ok cs' => offsetPolyLoop xo yo i fuel cs'
    else some (.ok cs)

/-- `OffsetShape` (core.py:172-195): the coordinates afterwards. -/
def offsetShape (fuel : Nat) (shape : Shape) (cs : List Len) (xo yo : Int) : Option (Except Err (List Len)) :=
  match shape with
  | .circle | .ellipse => some (addAt cs 0 (-xo) >>= fun cs => addAt cs 1 (-yo))
  | .default => some (.ok cs)
  | .poly => offsetPolyLoop xo yo 0 fuel cs
  | .rect => some (addAt cs 0 (-xo) >>= fun cs => addAt cs 1 (-yo) >>= fun cs =>
      addAt cs 2 (-xo) >>= fun cs => addAt cs 3 (-yo))

/-! ## `QTIObjectV1.ConvertAreaCoords` (imsqtiv1.py:172-210) -/

/-- Membership in the literal `"0123456789."` (imsqtiv1.py:180). -/
def isNumChar (c : Char) : Bool := Py.isDigit c || c == '.'

/-- The character loop (imsqtiv1.py:176-189). -/
def areaNums : Str → List Int → Str → Bool → Except Err (List Int)
  | [], coords, vStr, _ =>
    if vStr ≠ [] then Py.intOfStr vStr >>= fun n => .ok (coords ++ [n]) else .ok coords
  | c :: t, coords, vStr, sep =>
    if isNumChar c then
      if sep ∧ vStr ≠ [] then Py.intOfStr vStr >>= fun n => areaNums t (coords ++ [n]) [c] false
      else areaNums t coords (vStr ++ [c]) sep
    else areaNums t coords vStr true

/-- Shapes of the source format (imsqtiv1.py: `rarea`/`areatype` values). -/
inductive V1Shape where
  | rect | ellipse | bounded
deriving DecidableEq, Repr

/-- Padding with zeros (imsqtiv1.py:193-194, 200-201). -/
def padTo4 (cs : List Int) : List Int := cs ++ List.replicate (4 - cs.length) 0

/-- `ConvertAreaCoords` (imsqtiv1.py:172-210) without its warnings.  The division is Python's integer
division.  `bounded` areas become polygons elsewhere; here their coordinates are returned unchanged. -/
def convertAreaCoords (shape : V1Shape) (value : Str) : Except Err (Shape × List Int) :=
  areaNums value [] [] false >>= fun coords =>
  match shape with
  | .rect =>
    match padTo4 coords with
    | c0 :: c1 :: c2 :: c3 :: _ => .ok (.rect, [c0, c1, c0 + c3 - 1, c1 + c2 - 1])
    | _ => .error .indexError
  | .ellipse =>
    match padTo4 coords with
    | c0 :: c1 :: c2 :: c3 :: _ =>
      if c2 = c3 then .ok (.circle, [c0, c1, Int.fdiv c2 2])
      else .ok (.ellipse, [c0, c1, Int.fdiv c2 2, Int.fdiv c3 2])
    | _ => .error .indexError
  | .bounded => .ok (.poly, coords)

end Verif.Shapes
