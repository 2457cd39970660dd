import Verif.Geod.CrossSph
import Verif.Vec.Hull
import Mathlib.Analysis.SpecialFunctions.Trigonometric.Deriv

/-!
# Convex hull on the sphere

Model of `convexhull_sph` (karta/vector/convexhull.pyx 11-16, 84-148; karta/vector/geometry.py 600-613).  Coordinates are
rational numbers of degrees, azimuths and distances are real numbers; rounding is not modelled.  In particular the azimuth
from a vertex to a copy of itself is `atan2(0, 0) = 0`, whereas in floating point the second argument may differ from zero by
a rounding error when the latitude is not zero.  The tangent of the latitude 90 is taken as 0, so nothing is claimed about vertices
at the poles.
-/

namespace Karta.Geod.HullSph
open Karta Karta.Geod Karta.Geod.Sphere Karta.Geod.Cross
open Karta.Vec (Pt)
open Karta.Vec.Hull (readPts ptAt leftmost)

/-- Degrees to radians. -/
noncomputable def rad (d : ℝ) : ℝ := d * Real.pi / 180

/-- First argument of `atan2` in `azimuth_sph` (vectorgeo.pyx 173, 176). -/
noncomputable def east (p q : Pt) : ℝ := Real.sin (rad ((q.x : ℝ) - p.x))

/-- Second argument of `atan2` in `azimuth_sph` (vectorgeo.pyx 173-176). -/
noncomputable def north (p q : Pt) : ℝ :=
  Real.cos (rad p.y) * Real.tan (rad q.y) - Real.sin (rad p.y) * Real.cos (rad ((q.x : ℝ) - p.x))

/-- `azimuth_sph` (vectorgeo.pyx 169-176). -/
noncomputable def azimuthSph (p q : Pt) : ℝ := atan2 (east p q) (north p q)

open Classical in
/-- `isleft_sph` (convexhull.pyx 11-16). -/
noncomputable def isleftSph (pt0 pt1 pt2 : Pt) : Bool :=
  let az := azimuthSph pt1 pt2
  let azPt := azimuthSph pt1 pt0
  let daz := pyModR (az - azPt + Real.pi) (2 * Real.pi) - Real.pi
  decide (0 < daz)

/-- The order of the pairs `(az, i)` (convexhull.pyx 113-115). -/
def azLe (a b : ℝ × Nat) : Prop := a.1 < b.1 ∨ (a.1 = b.1 ∧ a.2 ≤ b.2)

open Classical in
/-- `azimuth_indices` (convexhull.pyx 103-115).  The search for the leftmost vertex (90-101) is that of the planar version. -/
noncomputable def azimuthIndices (P : List Pt) : List (ℝ × Nat) :=
  List.insertionSort azLe
    (((List.range P.length).filter fun i => i ≠ leftmost P).map fun i =>
      (Real.pi / 2 - azimuthSph (ptAt P (leftmost P)) (ptAt P i), i))

open Classical in
/-- The loop that drops vertices in the same direction (convexhull.pyx 117-132); see `Karta.Vec.Hull.dedup`. -/
noncomputable def dedup (P : List Pt) (L : Pt) (az : List (ℝ × Nat)) :
    List (ℝ × Nat) → (i last : Nat) → (lastpt : Pt) → (indices : List Nat) → List Nat
  | [], _, _, _, indices => indices
  | e :: es, i, last, lastpt, indices =>
    if e.1 = (az.getD last (0, 0)).1 then
      if distSph L.x L.y (ptAt P e.2).x (ptAt P e.2).y > distSph L.x L.y lastpt.x lastpt.y then
        dedup P L az es (i + 1) i (ptAt P i) (indices.dropLast ++ [e.2])
      else dedup P L az es (i + 1) last lastpt indices
    else dedup P L az es (i + 1) last lastpt (indices ++ [e.2])

/-- `while not isleft_sph(hull[-2], hull[-1], i): hull.pop()` (convexhull.pyx 143-146), with the hull listed from its end.
`hull[-2]` of a shorter list raises IndexError. -/
noncomputable def popWhile (P : List Pt) (i : Nat) : List Nat → Except Err (List Nat)
  | b :: a :: st => if isleftSph (ptAt P a) (ptAt P b) (ptAt P i) then .ok (b :: a :: st) else popWhile P i (a :: st)
  | _ => .error .indexError

/-- `for i in indices[2:]` (convexhull.pyx 142-147). -/
noncomputable def scan (P : List Pt) : List Nat → List Nat → Except Err (List Nat)
  | [], st => .ok st
  | i :: is, st =>
    match popWhile P i st with
    | .error e => .error e
    | .ok st' => scan P is (i :: st')

/-- `convexhull_sph` (convexhull.pyx 84-148). -/
noncomputable def convexhull (ring : Bool) (ps : List Pt) : Except Err (List Nat) :=
  let P := readPts ring ps
  if P = [] then .error .indexError
  else
    match azimuthIndices P with
    | [] => .error .indexError
    | e :: es =>
      match dedup P (ptAt P (leftmost P)) (e :: es) es 1 0 (ptAt P (leftmost P)) [e.2] with
      | [] => .error .indexError
      | [i] => .ok [leftmost P, i]
      | [i, j] => .ok [leftmost P, i, j]
      | i :: j :: is =>
        match scan P is [j, i, leftmost P] with
        | .error x => .error x
        | .ok st => .ok st.reverse

/-- `convex_hull` of a geometry in a geographical coordinate system (geometry.py 600-613): the vertices of the polygon. -/
noncomputable def convexHull (ring : Bool) (ps : List Pt) : Except Err (List Pt) :=
  (convexhull ring ps).map fun idx => idx.map (ptAt (readPts ring ps))

end Karta.Geod.HullSph
