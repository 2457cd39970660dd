import Verif.Vec.Basic
import Mathlib.Data.List.Rotate
import Mathlib.Algebra.Order.AbsoluteValue.Basic

/-!
Model of the planar bounding-box and segment-intersection routines
(karta/vector/intersection.pyx, karta/vector/geometry.py).  Numbers are exact rationals where
the code has C doubles (and, in `bboxes_overlap`, C floats); NaN results become `none`.
-/

namespace Karta.Vec

/-! ### Bounding boxes -/

/-- `MultiVertexMultipartMixin.bbox` (geometry.py 1415-1422): minimum and maximum over the boxes
of the members.  `min([])` raises a ValueError for a geometry without members. -/
def multiBbox : List Box → Except Err Box
  | [] => .error .valueError
  | b :: bs => .ok
    ⟨(bs.map Box.xmin).foldl min b.xmin, (bs.map Box.ymin).foldl min b.ymin,
     (bs.map Box.xmax).foldl max b.xmax, (bs.map Box.ymax).foldl max b.ymax⟩

/-- `extent` (geometry.py 459-474, 1424-1427): the box reordered to `(xmin, xmax, ymin, ymax)`. -/
def extent (b : Box) : ℚ × ℚ × ℚ × ℚ := (b.xmin, b.xmax, b.ymin, b.ymax)

/-- The adjustment made to each overlap width in `bboxes_overlap` (intersection.pyx 28-35). -/
def overlapWidth (d : ℚ) : ℚ := if d = 0 then 1 else if d < 0 then 0 else d

/-- `bboxes_overlap` (intersection.pyx 21-39). -/
def bboxesOverlap (a b : Box) : Bool :=
  let dx := overlapWidth (min a.xmax b.xmax - max a.xmin b.xmin)
  let dy := overlapWidth (min a.ymax b.ymax - max a.ymin b.ymin)
  if dx * dy = 0 then false else true

/-- `_bbox_overlap` (geometry.py 476-481). -/
def bboxOverlapMethod (a b : Box) : Bool :=
  decide (a.xmin ≤ b.xmax ∧ b.xmin ≤ a.xmax ∧ a.ymin ≤ b.ymax ∧ b.ymin ≤ a.ymax)

/-! ### Segments -/

/-- A directed segment. -/
structure Seg where
  a : Pt
  b : Pt
  deriving DecidableEq

/-- `cross2` (vectorgeo.pyx 25-26). -/
def cross2 (ux uy vx vy : ℚ) : ℚ := ux * vy - uy * vx

/-- `intersection` (intersection.pyx 606-622) of the segments `(x0,y0)-(x1,y1)` and
`(x2,y2)-(x3,y3)`; `none` is the returned pair of NaNs. -/
def intersection (s r : Seg) : Option Pt :=
  let rxs := cross2 (s.b.x - s.a.x) (s.b.y - s.a.y) (r.b.x - r.a.x) (r.b.y - r.a.y)
  if rxs = 0 then none
  else
    let t := cross2 (r.a.x - s.a.x) (r.a.y - s.a.y) (r.b.x - r.a.x) (r.b.y - r.a.y) / rxs
    let u := cross2 (r.a.x - s.a.x) (r.a.y - s.a.y) (s.b.x - s.a.x) (s.b.y - s.a.y) / rxs
    if (0 < t ∧ t ≤ 1) ∧ (0 < u ∧ u ≤ 1) then
      some ⟨s.a.x + t * (s.b.x - s.a.x), s.a.y + t * (s.b.y - s.a.y)⟩
    else none

/-- The consecutive segments visited by the loops of `all_intersections`
(intersection.pyx 50-62): `getX(i+1)` of a closed coordinate string wraps to vertex 0, and an
open one has one segment fewer. -/
def segsOf (ring : Bool) (ps : List Pt) : List Seg :=
  if ring then List.zipWith Seg.mk ps (ps.rotate 1) else List.zipWith Seg.mk ps ps.tail

/-- `all_intersections` (intersection.pyx 41-68): both loops, keeping results that are not NaN. -/
def allIntersections (ringA : Bool) (as : List Pt) (ringB : Bool) (bs : List Pt) : List Pt :=
  (segsOf ringA as).flatMap fun s => (segsOf ringB bs).filterMap fun r => intersection s r

/-- `overlaps` (intersection.pyx 523-527). -/
def overlaps (a0 a1 b0 b1 : ℚ) : Bool :=
  decide ((a0 ≤ b0 ∧ b0 ≤ a1) ∨ (a0 ≤ b1 ∧ b1 ≤ a1) ∨ (b0 ≤ a0 ∧ a0 ≤ b1) ∨ (b0 ≤ a1 ∧ a1 ≤ b1))

/-- `iscollinear` (intersection.pyx 529-540). -/
def iscollinear (s r : Seg) : Bool :=
  let rxs := cross2 (s.b.x - s.a.x) (s.b.y - s.a.y) (r.b.x - r.a.x) (r.b.y - r.a.y)
  if rxs = 0 then
    let rxt := cross2 (s.b.x - s.a.x) (s.b.y - s.a.y) (r.b.x - s.a.x) (r.b.y - s.a.y)
    if rxt = 0 then
      if s.b.x - s.a.x ≠ 0 ∧ overlaps s.a.x s.b.x r.a.x r.b.x = true then true
      else if overlaps s.a.y s.b.y r.a.y r.b.y = true then true
      else false
    else false
  else false

/-- `_intersects` (intersection.pyx 500-513) for segments of different geometries. -/
def segIntersects (s r : Seg) : Bool :=
  if iscollinear s r then true
  else if (intersection s r).isNone then false
  else true

end Karta.Vec
