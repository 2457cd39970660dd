import Verif.Geod.Trig
import Mathlib.Analysis.SpecialFunctions.Trigonometric.Arctan

/-!
Model of the spherical part of karta/geodesy.py (26-184) and of the corresponding kernels in karta/vector/vectorgeo.pyx.
Real numbers; rounding is not modelled.  (The longitude helpers `unroll_deg` and `reduce_deg` are those of
`Verif.Geod.Angle`, over the real numbers.)
-/

namespace Karta.Geod.Sphere
open Karta Karta.Geod

/-- A Cartesian vector. -/
structure V3 where
  x : ℝ
  y : ℝ
  z : ℝ

/-- `cross` (geodesy.py 27-31).  (The compiled `cross3` has another sign in the middle; see `Verif.Geod.CrossSph`.) -/
def cross (u v : V3) : V3 := ⟨u.y * v.z - u.z * v.y, u.z * v.x - u.x * v.z, u.x * v.y - u.y * v.x⟩

/-- `sph2cart` (geodesy.py 32-37, vectorgeo.pyx 131-138). -/
noncomputable def sph2cart (lon lat : ℝ) : V3 :=
  let theta := 90 - lat
  ⟨Real.sin (Real.pi * theta / 180) * Real.cos (Real.pi * lon / 180),
   Real.sin (Real.pi * theta / 180) * Real.sin (Real.pi * lon / 180),
   Real.cos (Real.pi * theta / 180)⟩

open Classical in
/-- `cart2sph` (geodesy.py 39-49 with `eps = 1e-4`; vectorgeo.pyx 140-154 with `eps = 1e-8`).  A zero denominator raises
ZeroDivisionError in Python (in the C version it gives NaN). -/
noncomputable def cart2sph (eps : ℝ) (v : V3) : Except Err (ℝ × ℝ) :=
  let r := Real.sqrt (v.x ^ 2 + v.y ^ 2)
  let n := Real.sqrt (v.x ^ 2 + v.y ^ 2 + v.z ^ 2)
  if ¬ eps < |v.z| ∧ n = 0 then .error .zeroDivision
  else
    let theta := if eps < |v.z| then Real.arctan (r / v.z) else Real.arccos (v.z / n)
    if ¬ eps < |v.x| ∧ r = 0 then .error .zeroDivision
    else
      let lon := if eps < |v.x| then atan2 v.y v.x else Real.arcsin (v.y / r)
      .ok (lon * 180 / Real.pi, (1 / 2 * Real.pi - theta) * 180 / Real.pi)

open Classical in
/-- `sphere_distance` (geodesy.py 95-108), angles in radians. -/
noncomputable def sphereDistance (lon1 lat1 lon2 lat2 radius : ℝ) : ℝ :=
  let dx := |lon1 - lon2|
  let dy := |lat1 - lat2|
  radius * (if 1 / 100 < dx ∨ 1 / 100 < dy then
      Real.arccos (Real.sin lat1 * Real.sin lat2 + Real.cos lat1 * Real.cos lat2 * Real.cos dx)
    else 2 * Real.arcsin (Real.sqrt (Real.sin (dy / 2) ^ 2 + Real.cos lat1 * Real.cos lat2 * Real.sin (dx / 2) ^ 2)))

open Classical in
/-- `dist_sph` (vectorgeo.pyx 39-55), angles in degrees. -/
noncomputable def distSph (lon0 lat0 lon1 lat1 : ℝ) : ℝ :=
  let dx := |lon0 - lon1| * Real.pi / 180
  let dy := |lat0 - lat1| * Real.pi / 180
  let y0 := lat0 * Real.pi / 180
  let y1 := lat1 * Real.pi / 180
  if 1 / 100 < dx ∨ 1 / 100 < dy then
    Real.arccos (Real.sin y0 * Real.sin y1 + Real.cos y0 * Real.cos y1 * Real.cos dx)
  else 2 * Real.arcsin (Real.sqrt (Real.sin (1 / 2 * dy) ^ 2 + Real.cos y0 * Real.cos y1 * Real.sin (1 / 2 * dx) ^ 2))

/-- `unroll_deg` (geodesy.py 62-64). -/
noncomputable def unrollDeg (d : ℝ) : ℝ := pyModR d 360

/-- `reduce_deg` (geodesy.py 66-68). -/
noncomputable def reduceDeg (d : ℝ) : ℝ := pyModR (d + 180) 360 - 180

/-- `isbetween_circular` (geodesy.py 128-134). -/
def isbetween (x x0 x1 : ℝ) : Prop :=
  if 180 < unrollDeg (x1 - x0) then 0 ≤ reduceDeg (x - x1) ∧ reduceDeg (x - x1) ≤ reduceDeg (x0 - x1)
  else 0 ≤ reduceDeg (x - x0) ∧ reduceDeg (x - x0) ≤ reduceDeg (x1 - x0)

/-- A segment `((lon, lat), (lon, lat))`. -/
structure Seg where
  a : ℝ × ℝ
  b : ℝ × ℝ

/-- `eulerpole` (geodesy.py 136-140). -/
noncomputable def eulerpole (s : Seg) : V3 := cross (sph2cart s.a.1 s.a.2) (sph2cart s.b.1 s.b.2)

/-- `check_in_segment_range` (geodesy.py 142-157). -/
def inRange (pt : ℝ × ℝ) (s : Seg) : Prop :=
  let lon1 := unrollDeg s.a.1
  let lon2 := unrollDeg s.b.1
  let dlon := |reduceDeg (lon2 - lon1)|
  if dlon < 1 / 10 ^ 8 ∧ dlon < |s.a.2 - s.b.2| then
    |pyModR (pt.1 + 360) 360 - lon1| < 180 ∧ s.a.2 ≤ pt.2 ∧ pt.2 ≤ s.b.2
  else isbetween pt.1 lon1 lon2

open Classical in
/-- `intersection_spherical` (geodesy.py 159-181); NoIntersection is reported as `other`. -/
noncomputable def intersection (s1 s2 : Seg) : Except Err (ℝ × ℝ) :=
  match cart2sph (1 / 10 ^ 4) (cross (eulerpole s1) (eulerpole s2)) with
  | .error e => .error e
  | .ok (lon, lat) =>
    let anti := (pyModR (lon + 360) 360 - 180, -lat)
    if inRange (lon, lat) s1 ∧ inRange (lon, lat) s2 then .ok (lon, lat)
    else if inRange anti s1 ∧ inRange anti s2 then .ok anti
    else .error .other

/-- `intersections` of two lines in a geographical system (geometry.py 717-722): the crossing of every pair of segments.
Simplification: duplicates are kept. -/
noncomputable def allIntersections (A B : List Seg) : Except Err (List (ℝ × ℝ)) :=
  (A.flatMap fun a => B.map fun b => (a, b)).mapM fun p => intersection p.1 p.2

end Karta.Geod.Sphere
