import Verif.Geod.Sphere

/-!
# Latitudes of the bounding box of geographical geometries

Model of `bndlat_sph` (karta/vector/vectorgeo.pyx 64-107) and of the latitudes computed by `bbox` (karta/vector/dateline.pyx 19-62).  Real
numbers; rounding is not modelled.
-/

namespace Karta.Geod.LatBound
open Karta Karta.Geod

open Classical in
/-- `fsign` (vectorgeo.pyx 57-62). -/
noncomputable def fsign (a : ℝ) : Int := if a = 0 then 1 else if 0 < a then 1 else -1

/-- `fabs((az + M_PI) % (2*M_PI) - M_PI)` (vectorgeo.pyx 90-91, 100-101). -/
noncomputable def turned (az : ℝ) : ℝ := |pyModR (az + Real.pi) (2 * Real.pi) - Real.pi|

/-- The forward azimuth (vectorgeo.pyx 76-77); the other one has the ends exchanged (78-79). -/
noncomputable def azim (dlam phi0 phi1 : ℝ) : ℝ :=
  atan2 (Real.sin dlam * Real.cos phi1) (Real.cos phi0 * Real.sin phi1 - Real.sin phi0 * Real.cos phi1 * Real.cos dlam)

open Classical in
/-- `bndlat_sph` (vectorgeo.pyx 64-107): `none` if it returns 1 and sets nothing. -/
noncomputable def bndlat (pt0 pt1 : ℝ × ℝ) : Option (ℝ × ℝ) :=
  let dlam := (pt1.1 - pt0.1) * Real.pi / 180
  let phi0 := pt0.2 * Real.pi / 180
  let phi1 := pt1.2 * Real.pi / 180
  let faz := azim dlam phi0 phi1
  let baz := azim (-dlam) phi1 phi0
  if dlam = 0 ∧ phi0 = phi1 then none
  else if dlam = 0 ∨ fsign pt0.2 ≠ fsign pt1.2 then some (min pt0.2 pt1.2, max pt0.2 pt1.2)
  else if fsign pt0.2 = 1 then
    some (min phi0 phi1 * 180 / Real.pi,
      if turned faz < 1 / 2 * Real.pi ∧ turned baz < 1 / 2 * Real.pi
      then Real.arccos |Real.sin faz * Real.cos phi0| * 180 / Real.pi
      else max phi0 phi1 * 180 / Real.pi)
  else
    some (if turned faz > 1 / 2 * Real.pi ∧ turned baz > 1 / 2 * Real.pi
      then -Real.arccos |Real.sin faz * Real.cos phi0| * 180 / Real.pi
      else min phi0 phi1 * 180 / Real.pi,
      max phi0 phi1 * 180 / Real.pi)

/-- State of the loop of `bbox` (dateline.pyx 33-37): previous point and latitudes. -/
structure LatBox where
  prev : ℝ × ℝ
  ymin : ℝ
  ymax : ℝ

/-- Loop body of `bbox`, latitudes (dateline.pyx 40-45, 57-58). -/
noncomputable def latStep (s : LatBox) (p : ℝ × ℝ) : LatBox :=
  match bndlat s.prev p with
  | none => ⟨p, s.ymin, s.ymax⟩
  | some b => ⟨p, min s.ymin b.1, max s.ymax b.2⟩

/-- `bbox`, latitudes (dateline.pyx 19-62). -/
noncomputable def latBbox (ring : Bool) (ps : List (ℝ × ℝ)) : Option (ℝ × ℝ) :=
  match ps with
  | [] => none
  | p :: _ =>
    let s := (if ring then ps ++ [p] else ps).foldl latStep ⟨p, p.2, p.2⟩
    some (s.ymin, s.ymax)

end Karta.Geod.LatBound
