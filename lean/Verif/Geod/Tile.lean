import Mathlib.Analysis.SpecialFunctions.Trigonometric.Arctan
import Mathlib.Analysis.SpecialFunctions.Log.Basic
import Mathlib.Analysis.SpecialFunctions.Trigonometric.DerivHyp

/-!
Model of karta/tile.py over the real numbers (the code uses doubles; rounding is not modelled).  Points are given
by geographical longitude and latitude in degrees; the projection of other coordinate systems is not modelled.
-/

namespace Karta.Tile

/-- `Tile` (tile.py 5-10). -/
structure Tile where
  z : Nat
  x : Int
  y : Int
  deriving DecidableEq

/-- `nw_corner`, longitude (tile.py 27-31). -/
noncomputable def nwLon (t : Tile) : ℝ := (t.x : ℝ) / 2 ^ t.z * 360 - 180

/-- `nw_corner`, latitude (tile.py 27-32). -/
noncomputable def nwLat (t : Tile) : ℝ :=
  Real.arctan (Real.sinh (Real.pi * (1 - 2 * (t.y : ℝ) / 2 ^ t.z))) * 180 / Real.pi

/-- `bbox` (tile.py 35-50): western, southern, eastern, northern limit. -/
noncomputable def bbox (t : Tile) : ℝ × ℝ × ℝ × ℝ :=
  (nwLon t, nwLat ⟨t.z, t.x, t.y + 1⟩, nwLon ⟨t.z, t.x + 1, t.y⟩, nwLat t)

/-- `tile_from_point` (tile.py 52-78). -/
noncomputable def tileFromPoint (lon lat : ℝ) (z : Nat) : Tile :=
  let c := 128 / Real.pi * 2 ^ z
  let x0 := c * (lon * Real.pi / 180 + Real.pi)
  let y0 := c * (Real.pi - Real.log (Real.tan (Real.pi / 4 + lat * Real.pi / 360)))
  ⟨z, ⌊x0 / 256⌋, ⌊y0 / 256⌋⟩

end Karta.Tile
