import Verif.Geod.Trig

/-!
Model of the planar geodetic problems: karta/crs.py 160-199 (`CartesianCRS`), karta/geodesy.py 51-89 and
the methods `azimuth`, `walk` and `distance` of `Point` (karta/vector/geometry.py).  Real numbers; rounding is not
modelled.
-/

namespace Karta.Geod
open Karta

/-- `unroll_rad` (geodesy.py 51-54). -/
noncomputable def unrollRad (r : ℝ) : ℝ := pyModR r (2 * Real.pi)

/-- `plane_distance` (geodesy.py 80-82). -/
noncomputable def planeDistance (x1 y1 x2 y2 : ℝ) : ℝ := Real.sqrt ((x2 - x1) ^ 2 + (y2 - y1) ^ 2)

/-- `plane_azimuth` (geodesy.py 84-89), radians. -/
noncomputable def planeAzimuth (x1 y1 x2 y2 : ℝ) : ℝ := atan2 (x2 - x1) (y2 - y1)

/-- `CartesianCRS.forward` (crs.py 174-186): the new position and the back azimuth. -/
noncomputable def forward (x y az dist : ℝ) (radians : Bool) : ℝ × ℝ × ℝ :=
  let a := if radians then az else az / 180 * Real.pi
  let baz := unrollRad (a + Real.pi)
  (x + dist * Real.sin a, y + dist * Real.cos a, if radians then baz else baz * 180 / Real.pi)

/-- `CartesianCRS.inverse` (crs.py 188-199): azimuth, back azimuth and distance. -/
noncomputable def inverse (x1 y1 x2 y2 : ℝ) (radians : Bool) : ℝ × ℝ × ℝ :=
  let az := planeAzimuth x1 y1 x2 y2
  let baz := unrollRad (az + Real.pi)
  if radians then (az, baz, planeDistance x1 y1 x2 y2)
  else (az * 180 / Real.pi, baz * 180 / Real.pi, planeDistance x1 y1 x2 y2)

/-- A vertex of two or three coordinates. -/
structure Vtx where
  x : ℝ
  y : ℝ
  z : Option ℝ

/-- `Point.azimuth` in a planar system (geometry.py 166-172); `none` stands for NaN. -/
noncomputable def azimuth (p q : Vtx) : Option ℝ :=
  open Classical in
  if p.x ≠ q.x ∨ p.y ≠ q.y then
    some (pyModR (90 - atan2 (q.y - p.y) (q.x - p.x) * 180 / Real.pi + 180) 360 - 180)
  else none

/-- `Point.azimuth` in a geographical system (geometry.py 166, 173-177); `inv` is the system's `inverse`. -/
noncomputable def azimuthGeo (inv : ℝ → ℝ → ℝ → ℝ → ℝ × ℝ × ℝ) (p q : Vtx) : Option ℝ :=
  open Classical in
  if p.x ≠ q.x ∨ p.y = q.y then some (inv p.x p.y q.x q.y).1 else none

/-- `Point.walk` in a planar system (geometry.py 244-248, 253).  The new point has two coordinates. -/
noncomputable def walk (p : Vtx) (distance az : ℝ) : Vtx :=
  let maz := (90 - az) * Real.pi / 180
  ⟨p.x + distance * Real.cos maz, p.y + distance * Real.sin maz, none⟩

/-- `Point.distance` of two points of one planar system (geometry.py 298-301, 307-310). -/
noncomputable def distance (p q : Vtx) : ℝ :=
  let d := Real.sqrt ((q.x - p.x) * (q.x - p.x) + (q.y - p.y) * (q.y - p.y))
  match p.z, q.z with
  | some a, some b => Real.sqrt (d * d + (a - b) * (a - b))
  | _, _ => d

end Karta.Geod
