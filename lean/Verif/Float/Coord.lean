import Verif.Float.Basic

/-!
# Cell lookup in floating point

The functions of `Verif.Grid.Coord` with every operation rounded.  Products with 0.5 and sums are in the order of the source; fused
multiply-add instructions are not considered.
-/

namespace Karta.Float
open Karta Karta.Grid

variable (R : Rounding)

/-- `CoordinateGenerator.__getitem__` for two integers (coordgen.py 61-63). -/
def coordGenF (T : Xform) (i j : Int) : ℚ × ℚ :=
  (R.fl (R.fl (R.fl (R.fl (T.x0 + R.fl ((j : ℚ) * T.dx)) + R.fl ((i : ℚ) * T.sx)) + R.fl (1 / 2 * T.dx)) + R.fl (1 / 2 * T.sx)),
   R.fl (R.fl (R.fl (R.fl (T.y0 + R.fl ((i : ℚ) * T.dy)) + R.fl ((j : ℚ) * T.sy)) + R.fl (1 / 2 * T.dy)) + R.fl (1 / 2 * T.sy)))

/-- `positions` for a single point (grid.py 762-786, crfuncs.pyx 11-33). `none` where a divisor is zero. -/
def positionsF (T : Xform) (x y : ℚ) : Option (ℚ × ℚ) :=
  let det := R.fl (R.fl (T.dx * T.dy) - R.fl (T.sx * T.sy))
  if det = 0 ∨ T.dy = 0 then none
  else
    let j_ := R.fl (R.fl (R.fl (R.fl (R.fl (T.dy * x) - R.fl (T.dy * T.x0)) + R.fl (T.sx * T.y0)) - R.fl (T.sx * y)) / det)
    let i_ := R.fl (R.fl (R.fl (y - T.y0) - R.fl (j_ * T.sy)) / T.dy)
    some (R.fl (i_ - 1 / 2), R.fl (j_ - 1 / 2))

/-- `_indices` for a single point (grid.py 788-801).  Simplification: the cast to 32-bit integers does not overflow. -/
def indicesRawF (T : Xform) (x y : ℚ) : Option (Int × Int) :=
  (positionsF R T x y).map fun p => (rint p.1, rint p.2)

/-- `indices` for a single point (grid.py 803-828). -/
def indicesF (T : Xform) (ny nx : Nat) (x y : ℚ) : Option (Except Err (Int × Int)) :=
  (indicesRawF R T x y).map fun p =>
    if p.1 < 0 ∨ p.1 > (ny : Int) - 1 ∨ p.2 < 0 ∨ p.2 > (nx : Int) - 1 then .error .indexError
    else .ok p

end Karta.Float
