import Verif.Vec.Along

/-!
# Lengths and perimeters

Model of `length` (karta/vector/vectorgeo.pyx 178-196), `ConnectedMultiVertexMixin.length`, `Polygon.segments` and
`Polygon.perimeter` (karta/vector/geometry.py 646-665, 1077-1107).  Real numbers; rounding is not modelled.
-/

namespace Karta.Length
open Karta Karta.Geod

/-- A coordinate system as far as lengths depend on it: planar, or geographical with the method `inverse`. -/
inductive Sys where
  | planar
  | geo (inv : ℝ → ℝ → ℝ → ℝ → ℝ × ℝ × ℝ)

/-- The loop of `length` (vectorgeo.pyx 188-195): `p` is `(x0, y0)` and `d` the sum so far. -/
noncomputable def planarLoop : Vtx → List Vtx → ℝ → ℝ
  | _, [], d => d
  | p, q :: r, d => planarLoop q r (d + Real.sqrt ((q.x - p.x) * (q.x - p.x) + (q.y - p.y) * (q.y - p.y)))

/-- The loop of `ConnectedMultiVertexMixin.length` in a geographical system (geometry.py 658-662). -/
noncomputable def geoLoop (inv : ℝ → ℝ → ℝ → ℝ → ℝ × ℝ × ℝ) : Vtx → List Vtx → ℝ → ℝ
  | _, [], d => d
  | p, q :: r, d => geoLoop inv q r (d + (inv p.x p.y q.x q.y).2.2)

/-- `Line.length` (geometry.py 646-665).  The vertices of a line are not a ring, so that `n` in vectorgeo.pyx 181-183 is
their number.  Without vertices the first lookup is taken to fail (no theorem is about this case). -/
noncomputable def lineLength (s : Sys) : List Vtx → Except Err ℝ
  | [] => .error .indexError
  | p :: r =>
    match s with
    | .planar => .ok (planarLoop p r 0)
    | .geo inv => .ok (geoLoop inv p r 0)

/-- `Polygon.segments` (geometry.py 1077-1083): the pairs `(i, i+1)`, then `(L-1, 0)`, each made a line by `_subset`
(geometry.py 1038-1042). -/
def segments : List Vtx → Except Err (List (List Vtx))
  | [] => .error .indexError
  | p :: r => .ok ((List.zip (p :: r) r).map (fun e => [e.1, e.2]) ++ [[(p :: r).getLast (by simp), p]])

/-- A sum of lengths in which the first exception ends the evaluation (`sum(seg.length for seg in self.segments)`). -/
noncomputable def sumLengths (s : Sys) : List (List Vtx) → ℝ → Except Err ℝ
  | [], d => .ok d
  | l :: ls, d =>
    match lineLength s l with
    | .error e => .error e
    | .ok x => sumLengths s ls (d + x)

/-- A polygon with sub-polygons and vertices of two or three coordinates (geometry.py 989-998). -/
inductive Region where
  | mk (ring : List Vtx) (subs : List Region)

mutual
/-- `Polygon.perimeter` (geometry.py 1097-1107). -/
noncomputable def Region.perimeter (s : Sys) : Region → Except Err ℝ
  | .mk ring subs =>
    match segments ring with
    | .error e => .error e
    | .ok segs =>
      match sumLengths s segs 0 with
      | .error e => .error e
      | .ok d =>
        match Region.perimeters s subs 0 with
        | .error e => .error e
        | .ok d' => .ok (d + d')
/-- `sum([p.perimeter for p in self.subs])` (geometry.py 1107). -/
noncomputable def Region.perimeters (s : Sys) : List Region → ℝ → Except Err ℝ
  | [], d => .ok d
  | p :: ps, d =>
    match p.perimeter s with
    | .error e => .error e
    | .ok x => Region.perimeters s ps (d + x)
end

end Karta.Length
