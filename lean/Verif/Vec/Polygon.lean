import Verif.Vec.Planar

/-!
Model of planar polygons (karta/vector/contains.pyx 6-42, karta/vector/geometry.py 975-1179):
containment, area, orientation and centroid, with nested sub-polygons.
-/

namespace Karta.Vec

/-- Consecutive vertex pairs of a ring, the closing pair last: the pairs `(pt0, pt1)` visited by
the loop of `contains` (contains.pyx 24-40), which carries `pt0` along. -/
def ringEdges (ps : List Pt) : List (Pt × Pt) := List.zip ps (ps.rotate 1)

/-- The pairs of `Polygon.segment_tuples` (geometry.py 1086-1091), `(v[i-1], v[i])` for `i` from
0: the closing pair comes first.  The same pairs in the same order are visited by the area
(1141-1142) and by the centroid (`range(-1, len(self)-1)`, 1149-1153). -/
def segmentTuples (ps : List Pt) : List (Pt × Pt) := List.zip (ps.rotate (ps.length - 1)) ps

/-- `isleft` (contains.pyx 6-11). -/
def isleft (pt pt0 pt1 : Pt) : ℚ :=
  (pt1.x - pt0.x) * (pt.y - pt0.y) - (pt.x - pt0.x) * (pt1.y - pt0.y)

/-- One pass of the loop of `contains` (contains.pyx 32-39): the change to the counter. -/
def windStep (pt : Pt) (e : Pt × Pt) : Int :=
  if e.1.y ≤ pt.y ∧ pt.y < e.2.y then
    if isleft pt e.1 e.2 > 0 then 1 else 0
  else if e.1.y > pt.y ∧ pt.y ≥ e.2.y then
    if isleft pt e.1 e.2 < 0 then -1 else 0
  else 0

/-- The counter of `contains` after the loop. -/
def windCount (pt : Pt) (ps : List Pt) : Int :=
  (ringEdges ps).foldl (fun cnt e => cnt + windStep pt e) 0

/-- `contains` (contains.pyx 13-42) on a ring.  The C integer counter is unbounded here. -/
def ringContains (pt : Pt) (ps : List Pt) : Bool := decide (windCount pt ps ≠ 0)

/-- A polygon: boundary ring and sub-polygons (geometry.py 989-998). -/
inductive Poly where
  | mk (ring : List Pt) (subs : List Poly)

mutual
/-- `Polygon.contains` for planar coordinates (geometry.py 1172-1174). -/
def Poly.contains (pt : Pt) : Poly → Bool
  | .mk ring subs => ringContains pt ring && !(Poly.anyContains pt subs)
/-- `any(p.contains(point) for p in self.subs)` (geometry.py 1174). -/
def Poly.anyContains (pt : Pt) : List Poly → Bool
  | [] => false
  | p :: ps => p.contains pt || Poly.anyContains pt ps
end

/-- `np.min(x)` (geometry.py 1140) of a non-empty list. -/
def minX (p : Pt) (ps : List Pt) : ℚ := (ps.map P2.x).foldl min p.x

/-- The signed sum of `Polygon.area` in a Cartesian system (geometry.py 1139-1142): the closing
pair first.  Fails on a polygon without vertices (`np.min` of an empty array). -/
def signedAreaSum : List Pt → Except Err ℚ
  | [] => .error .valueError
  | p :: ps =>
    let x0 := minX p ps
    .ok ((segmentTuples (p :: ps)).foldl
      (fun acc e => acc + ((e.2.x + e.1.x) / 2 - x0) * (e.2.y - e.1.y)) 0)

mutual
/-- `Polygon.area` in a Cartesian system (geometry.py 1109-1143). -/
def Poly.area : Poly → Except Err ℚ
  | .mk ring subs => do
    let a ← signedAreaSum ring
    let s ← Poly.areaSum subs
    return |a| - s
/-- `sum(sub.area for sub in self.subs)` (geometry.py 1143). -/
def Poly.areaSum : List Poly → Except Err ℚ
  | [] => .ok 0
  | p :: ps => do
    let a ← p.area
    let s ← Poly.areaSum ps
    return a + s
end

/-- `Polygon.isclockwise` (geometry.py 1044-1048). -/
def isclockwise (ps : List Pt) : Bool :=
  decide ((((segmentTuples ps).map fun e => (e.2.x - e.1.x) * (e.2.y + e.1.y)).sum) > 0)

/-- `Polygon.centroid` (geometry.py 1145-1154); `none` when the division by `6*A` is by zero
(NaN or infinite coordinates in the code). -/
def centroid (ps : List Pt) : Option Pt :=
  let A := 1 / 2 * ((segmentTuples ps).map fun e => e.1.x * e.2.y - e.2.x * e.1.y).sum
  let cx := ((segmentTuples ps).map fun e =>
    (e.1.x + e.2.x) * (e.1.x * e.2.y - e.2.x * e.1.y)).sum
  let cy := ((segmentTuples ps).map fun e =>
    (e.1.y + e.2.y) * (e.1.x * e.2.y - e.2.x * e.1.y)).sum
  if 6 * A = 0 then none else some ⟨cx / (6 * A), cy / (6 * A)⟩

end Karta.Vec
