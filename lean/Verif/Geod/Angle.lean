import Mathlib.Data.Rat.Floor
import Mathlib.Algebra.Order.Ring.Rat
import Mathlib.Algebra.Order.Field.Rat
import Verif.Py

/-!
Model of the angle arithmetic of karta/geodesy.py, karta/vector/dateline.pyx and the longitude tests of
karta/vector/geometry.py.  Angles are exact rational numbers of degrees (the code uses doubles; rounding is
not modelled).
-/

namespace Karta.Geod
open Karta

/-- `x % m` of Python for a positive float `m`. -/
def pyMod (x m : ℚ) : ℚ := x - m * (⌊x / m⌋ : ℤ)

/-- `unroll_deg` (geodesy.py 62-64). -/
def unrollDeg (d : ℚ) : ℚ := pyMod d 360

/-- `reduce_deg` (geodesy.py 66-68). -/
def reduceDeg (d : ℚ) : ℚ := pyMod (d + 180) 360 - 180

/-- `isbetween_circular` (geodesy.py 128-134). -/
def isbetweenCircular (x x0 x1 : ℚ) : Bool :=
  if 180 < unrollDeg (x1 - x0) then decide (0 ≤ reduceDeg (x - x1) ∧ reduceDeg (x - x1) ≤ reduceDeg (x0 - x1))
  else decide (0 ≤ reduceDeg (x - x0) ∧ reduceDeg (x - x0) ≤ reduceDeg (x1 - x0))

/-- The record of what `_canonical_configuration` did (geodesy.py 291). -/
structure Flips where
  yflip : Bool
  xflip : Bool
  ysignswap : Bool
  deriving DecidableEq

/-- Exchange of the latitudes (geodesy.py 293-295). -/
def canonSwap (y1 y2 : ℚ) : Bool × ℚ × ℚ := if |y1| < |y2| then (true, y2, y1) else (false, y1, y2)

/-- Change of hemisphere (geodesy.py 297-299). -/
def canonSign (y1 y2 : ℚ) : Bool × ℚ × ℚ := if 0 < y1 then (true, -y1, -y2) else (false, y1, y2)

/-- Direction of the longitude difference (geodesy.py 301-306). -/
def canonLon (x1 x2 : ℚ) : Bool × ℚ :=
  let d := reduceDeg (x2 - x1)
  if d < 0 ∨ 180 < d then (true, -d) else (false, d)

/-- `_canonical_configuration` (geodesy.py 285-308): flags, `x1`, `y1`, `x2`, `y2`. -/
def canonical (x1 y1 x2 y2 : ℚ) : Flips × ℚ × ℚ × ℚ × ℚ :=
  let a := canonSwap y1 y2
  let b := canonSign a.2.1 a.2.2
  let c := canonLon x1 x2
  (⟨a.1, c.1, b.1⟩, 0, b.2.1, c.2, b.2.2)

/-- `fsign` (vectorgeo.pyx 57-62) and `sign` (geometry.py 1818-1823). -/
def fsign (a : ℚ) : Int := if a = 0 then 1 else if 0 < a then 1 else -1

/-- `crosses_dateline` (dateline.pyx 5-17). -/
def crossesDateline (x0 x1 : ℚ) : Int :=
  if fsign x0 ≠ fsign x1 ∧ 180 < |x0 - x1| then (if 180 < x1 - x0 then 1 else -1) else 0

/-- Longitudes of the ends of the segments of a line (geometry.py 667-670), or of a polygon, which has a closing
one (geometry.py 1083-1089). -/
def segLons (closed : Bool) (xs : List ℚ) : List (ℚ × ℚ) :=
  xs.zip (xs.tail) ++ (if closed then ((xs.getLast?.toList).zip (xs.head?.toList)) else [])

/-- `crosses_dateline` of a line or polygon in geographical coordinates (geometry.py 809-821). -/
def anyCrosses (closed : Bool) (xs : List ℚ) : Bool :=
  (segLons closed xs).any fun s => decide (fsign s.1 ≠ fsign s.2 ∧ 180 < |s.1 - s.2|)

/-- State of the loop of `bbox` (dateline.pyx 33-37). -/
structure LonBox where
  xmin : ℚ
  xmax : ℚ
  rot : ℚ
  x0 : ℚ

/-- Loop body of `bbox`, longitudes (dateline.pyx 40, 46-56). -/
def lonStep (s : LonBox) (x1 : ℚ) : LonBox :=
  if crossesDateline s.x0 x1 ≠ 0 then
    let rot := s.rot - (crossesDateline s.x0 x1 : ℚ) * 360
    ⟨min s.xmin (x1 + rot), max s.xmax (x1 + rot), rot, x1⟩
  else if s.x0 > x1 then ⟨min s.xmin x1, s.xmax, s.rot, x1⟩
  else ⟨s.xmin, max s.xmax x1, s.rot, x1⟩

/-- `bbox`, longitudes (dateline.pyx 19-62): western and eastern limit; `none` stands for NaN. -/
def lonBbox (ring : Bool) (xs : List ℚ) : Option (ℚ × ℚ) :=
  match xs with
  | [] => none
  | x :: _ =>
    let s := (if ring then xs ++ [x] else xs).foldl lonStep ⟨x, x, 0, x⟩
    some (reduceDeg s.xmin, reduceDeg s.xmax)

/-- The angle summed by `ispolar` (geometry.py 1066-1076). -/
def polarSum (xs : List ℚ) : ℚ :=
  (xs.foldl (fun (s : ℚ × ℚ) v =>
      (reduceDeg v,
        if crossesDateline s.1 (reduceDeg v) ≠ 0 then s.2 + (360 + reduceDeg v - s.1)
        else s.2 + (reduceDeg v - s.1)))
    (reduceDeg (xs.getLast?.getD 0), 0)).2

/-- `ispolar` of a polygon with the given longitudes (geometry.py 1048-1078). -/
def ispolar (xs : List ℚ) : Bool := decide (1 / 10000 < |polarSum xs|)

/-- `_ellipsoidal_inverse_equatorial` (geodesy.py 422-431): azimuths, and the distance in units of a degree along
the equator, `2 * pi * a / 360`. -/
def inverseEquatorial (x1 x2 : ℚ) : ℚ × ℚ × ℚ :=
  if pyMod (x2 - x1 + 180) 360 - 180 < 0 then (-90, 90, |x1 - x2|) else (90, -90, |x1 - x2|)

end Karta.Geod
