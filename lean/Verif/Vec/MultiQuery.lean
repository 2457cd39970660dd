import Verif.Vec.RTree
import Verif.Vec.Sweep
import Verif.Vec.Polygon

/-!
# Queries on the parts of Multiline and Multipolygon

Model of `MultiVertexMultipartMixin.within_bbox`, `touching_bbox`, `touching` and `within` (karta/vector/geometry.py 1472-1544) in a planar
system.  The result is the list of the positions of the parts that are returned.  Simplification: a part without vertices is not modelled.
-/

namespace Karta.Multi
open Karta Karta.Vec Karta.RTree

/-- A part: a line, or the outer ring of a polygon (geometry.py 1580-1584, 1705-1713), and its vertices.  The theorems hold for both values of
`ring`; in fact it is false also for polygons (`Karta.Rings.item_open`). -/
structure Part where
  ring : Bool
  first : Pt
  rest : List Pt

/-- The vertices of a part. -/
def Part.pts (m : Part) : List Pt := m.first :: m.rest

/-- The bounding box handed to the index (rtree.pyx 55-60; vectorgeo.pyx 109-149).  Simplification: the index rounds to 32 bits, the model
does not. -/
def boxOf (p : Pt) (ps : List Pt) : RBox :=
  let b := ps.foldl bboxStep ⟨p.x, p.y, p.x, p.y⟩
  ⟨b.xmin, b.ymin, b.xmax, b.ymax⟩

/-- `self.rtree.search_overlapping(bbox, max_results)` (geometry.py 1493, 1510, 1537) on the index built by the constructor
(geometry.py 1576, 1701).  `none` if the search takes more than `fuel` rounds. -/
def overlapping (fuel : Nat) (ms : List Part) (q : RBox) (max : Int) : Except Err (Option (List Nat)) :=
  match build 50 (ms.map fun m => boxOf m.first m.rest) with
  | .error e => .error e
  | .ok t => .ok (searchOverlapping fuel t q max)

/-- `self.rtree.search_within(bbox, max_results)` (geometry.py 1481). -/
def inBox (fuel : Nat) (ms : List Part) (q : RBox) (max : Int) : Except Err (Option (List Nat)) :=
  match build 50 (ms.map fun m => boxOf m.first m.rest) with
  | .error e => .error e
  | .ok t => .ok (searchWithin fuel t q max)

/-- The loops over the candidates (geometry.py 1513-1516, 1518-1522, 1539-1543): parts that pass the test are kept. -/
def keep (ms : List Part) (test : Part → Except Err Bool) : List Nat → Except Err (List Nat)
  | [] => .ok []
  | i :: is =>
    match ms[i]? with
    | none => .error .indexError
    | some m =>
      match test m with
      | .error e => .error e
      | .ok b =>
        match keep ms test is with
        | .error e => .error e
        | .ok r => .ok (if b then i :: r else r)

/-- The test of `within` (geometry.py 1541-1542): the first vertex is contained and, if so, the boundaries do not intersect.  Sub-polygons
of the argument take part in the first test only. -/
def withinTest (ring : List Pt) (subs : List Poly) (m : Part) : Except Err Bool :=
  if (Poly.mk ring subs).contains m.first then
    match Sweep.geomIntersects true ring m.ring m.pts with
    | .error e => .error e
    | .ok b => .ok (!b)
  else .ok false

/-- The test of `touching` for a polygon (geometry.py 1520-1521). -/
def touchTest (ring : List Pt) (subs : List Poly) (m : Part) : Except Err Bool :=
  if (Poly.mk ring subs).contains m.first then .ok true
  else Sweep.geomIntersects true ring m.ring m.pts

/-- A query: candidates from the index, then the loop. -/
def query (fuel : Nat) (ms : List Part) (ring : List Pt) (test : Part → Except Err Bool) : Except Err (Option (List Nat)) :=
  match ring with
  | [] => .error .other
  | p :: ps =>
    match overlapping fuel ms (boxOf p ps) (-1) with
    | .error e => .error e
    | .ok none => .ok none
    | .ok (some is) =>
      match keep ms test is with
      | .error e => .error e
      | .ok r => .ok (some r)

/-- `within` (geometry.py 1527-1544). -/
def within (fuel : Nat) (ms : List Part) (ring : List Pt) (subs : List Poly) : Except Err (Option (List Nat)) :=
  query fuel ms ring (withinTest ring subs)

/-- `touching` for a polygon (geometry.py 1496-1525). -/
def touchingPolygon (fuel : Nat) (ms : List Part) (ring : List Pt) (subs : List Poly) : Except Err (Option (List Nat)) :=
  query fuel ms ring (touchTest ring subs)

/-- `touching` for a line (geometry.py 1496-1525). -/
def touchingLine (fuel : Nat) (ms : List Part) (line : List Pt) : Except Err (Option (List Nat)) :=
  query fuel ms line fun m => Sweep.geomIntersects false line m.ring m.pts

end Karta.Multi
