import Verif.Vec.Planar

/-!
Model of distances from a point to planar boundaries (karta/vector/vectorgeo.pyx 30-37, 197-251;
karta/vector/geometry.py 725-807).  Distances are represented by their squares, which order the
same way; the square root itself is not modelled.
-/

namespace Karta.Vec

/-- Square of `dist2` (vectorgeo.pyx 35-36). -/
def sqDist (p q : Pt) : ℚ := (p.x - q.x) ^ 2 + (p.y - q.y) ^ 2

/-- `proj2` (vectorgeo.pyx 30-33): projection of `u` on `v`.  Division by `dot2(v, v) = 0` is an
error (Cython checks for it). -/
def proj2 (u v : Pt) : Except Err Pt :=
  let vv := v.x * v.x + v.y * v.y
  if vv = 0 then .error .zeroDivision
  else
    let r := (u.x * v.x + u.y * v.y) / vv
    .ok ⟨r * v.x, r * v.y⟩

/-- `pt_nearest_planar` (vectorgeo.pyx 197-251): the nearest point of the segment and the square of
its distance. -/
def ptNearestPlanar (pt pt0 pt1 : Pt) : Except Err (Pt × ℚ) :=
  match proj2 ⟨pt.x - pt0.x, pt.y - pt0.y⟩ ⟨pt1.x - pt0.x, pt1.y - pt0.y⟩ with
  | .error e => .error e
  | .ok w =>
    let i : Pt := ⟨w.x + pt0.x, w.y + pt0.y⟩
    if |pt0.x - pt1.x| < 1 / 10000 then
      if i.y > max pt0.y pt1.y then
        if pt0.y > pt1.y then .ok (pt0, sqDist pt0 pt) else .ok (pt1, sqDist pt1 pt)
      else if i.y < min pt0.y pt1.y then
        if pt0.y < pt1.y then .ok (pt0, sqDist pt0 pt) else .ok (pt1, sqDist pt1 pt)
      else .ok (i, sqDist i pt)
    else
      if i.x > max pt0.x pt1.x then
        if pt0.x > pt1.x then .ok (pt0, sqDist pt0 pt) else .ok (pt1, sqDist pt1 pt)
      else if i.x < min pt0.x pt1.x then
        if pt0.x < pt1.x then .ok (pt0, sqDist pt0 pt) else .ok (pt1, sqDist pt1 pt)
      else .ok (i, sqDist i pt)

/-- The loop of `_nearest_to_point` (geometry.py 756-761): `none` is the initial state. -/
def minLoop : Option (Pt × ℚ) → List (Pt × ℚ) → Option (Pt × ℚ)
  | acc, [] => acc
  | none, r :: rs => minLoop (some r) rs
  | some m, r :: rs => minLoop (some (if r.2 < m.2 then r else m)) rs

/-- `_nearest_to_point` for a planar coordinate system (geometry.py 725-763).  The segments are
`zip(vertices.slice(0, -1), vertices.slice(1, 0))`; `slice` belongs to the coordstring package and is
taken to return all vertices but the last and all vertices but the first, for open strings and for
rings alike.  `none` is the returned pair `(-1.0, None)`. -/
def nearestToPoint (pt : Pt) (ps : List Pt) : Except Err (Option (Pt × ℚ)) := do
  let rs ← (List.zip ps.dropLast ps.tail).mapM fun s => ptNearestPlanar pt s.1 s.2
  return minLoop none rs

/-- One term of `within_distance` (geometry.py 805-807): `seg.shortest_distance_to(pt) <= distance`
for a two-vertex line.  The value -1 of an empty search compares as less. -/
def segWithin (pt : Pt) (d : ℚ) (s : Seg) : Except Err Bool := do
  match ← nearestToPoint pt [s.a, s.b] with
  | none => return true
  | some (_, sq) => return decide (0 ≤ d ∧ sq ≤ d ^ 2)

/-- `within_distance` (geometry.py 794-807) for `distance = d`: `all` over the segments.
`Polygon.segments` (1078-1084) includes the closing segment. -/
def withinDistance (ring : Bool) (pt : Pt) (d : ℚ) (ps : List Pt) : Except Err Bool := do
  let bs ← (segsOf ring ps).mapM (segWithin pt d)
  return bs.all id

end Karta.Vec
