import Verif.Geod.Angle
import Verif.Geod.Sphere
import Verif.Vec.Polygon

/-!
# Containment in polygons around a pole

Model of `contains_proj` (karta/vector/contains.pyx 44-85) and of `Polygon.contains` in a geographical system
(karta/vector/geometry.py 1156-1174).  Coordinates are rational numbers of degrees, azimuths are real numbers;
rounding is not modelled.  The azimuth returned by `crs.inverse`, which comes from pyproj, is a parameter; `sphereAz` is
the one of a sphere.
-/

namespace Karta.Geod.Polar
open Karta Karta.Geod

/-- Longitude and latitude. -/
abbrev LL := ℚ × ℚ

/-- `(az + 360) % 360` of the first result of `crs.inverse(x, y, x1, y1)` (contains.pyx 59-60, 66-67). -/
noncomputable def bearing (az : LL → LL → ℝ) (p v : LL) : ℝ := pyModR (az p v + 360) 360

open Classical in
/-- What one side adds to `sum_az` (contains.pyx 70-77). -/
noncomputable def azStep (az0 az1 : ℝ) : ℝ :=
  if az1 - az0 < -180 then (az1 - az0) + 360
  else if az0 - az1 > 180 then (az1 - az0) - 360
  else az1 - az0

/-- The loop of `contains_proj` (contains.pyx 61-81): `sum_az` after the given vertices. -/
noncomputable def azLoop (b : LL → ℝ) : ℝ → ℝ → List LL → ℝ
  | _, s, [] => s
  | az0, s, v :: vs => azLoop b (b v) (s + azStep az0 (b v)) vs

open Classical in
/-- `contains_proj` (contains.pyx 44-85) on a ring; vertex `n` of a ring of `n` vertices is vertex 0.
Simplification: a ring without vertices, for which the code fails, contains nothing here. -/
noncomputable def containsProj (az : LL → LL → ℝ) (p : LL) : List LL → Bool
  | [] => false
  | v :: vs =>
    let s := azLoop (bearing az p) (bearing az p v) 0 (vs ++ [v])
    if |s| > 1 / 10 ^ 4 then false else true

/-- A polygon in a geographical system: boundary ring and sub-polygons (geometry.py 989-998). -/
inductive GPoly where
  | mk (ring : List LL) (subs : List GPoly)

mutual
/-- `Polygon.contains` in a geographical system (geometry.py 1168-1174).  The sub-polygons have the system of the
polygon. -/
noncomputable def GPoly.contains (az : LL → LL → ℝ) (p : LL) : GPoly → Bool
  | .mk ring subs =>
    if ispolar (ring.map Prod.fst) then containsProj az p ring && !(GPoly.anyContains az p subs)
    else Vec.ringContains ⟨p.1, p.2⟩ (ring.map fun v => ⟨v.1, v.2⟩) && !(GPoly.anyContains az p subs)
/-- `any(p.contains(point) for p in self.subs)` (geometry.py 1171, 1174). -/
noncomputable def GPoly.anyContains (az : LL → LL → ℝ) (p : LL) : List GPoly → Bool
  | [] => false
  | q :: qs => q.contains az p || GPoly.anyContains az p qs
end

/-- Degrees to radians. -/
noncomputable def rad (d : ℚ) : ℝ := (d : ℝ) / 180 * Real.pi

/-- The azimuth returned by `GeographicalCRS.inverse` on a sphere (crs.py 238-243): that of the great circle, reduced to
[-180, 180).  The great-circle azimuth itself is pyproj's. -/
noncomputable def sphereAz (p v : LL) : ℝ :=
  Sphere.reduceDeg (atan2 (Real.cos (rad v.2) * Real.sin (rad (v.1 - p.1)))
    (Real.cos (rad p.2) * Real.sin (rad v.2) - Real.sin (rad p.2) * Real.cos (rad v.2) * Real.cos (rad (v.1 - p.1)))
      * 180 / Real.pi)

end Karta.Geod.Polar
