import Verif.Py
import Mathlib.Algebra.Order.Floor.Ring
import Mathlib.Data.Rat.Floor

/-!
Model of the coordinate arithmetic of `RegularGrid` (karta/raster/grid.py, karta/raster/coordgen.py,
karta/raster/crfuncs.pyx).  Coordinates are exact rationals and the output coordinate system is the
grid's own, so that no projection is involved.
-/

namespace Karta.Grid
open Karta

/-- The six-element transform `(x0, y0, dx, dy, sx, sy)` of a `RegularGrid` (grid.py 86-112). -/
structure Xform where
  x0 : ℚ
  y0 : ℚ
  dx : ℚ
  dy : ℚ
  sx : ℚ
  sy : ℚ
  deriving DecidableEq, Repr

/-- `np.round(...).astype(int)` and Python 3 `int(round(...))`: halves go to the even neighbour. -/
def rint (q : ℚ) : Int :=
  if q - ⌊q⌋ < 1 / 2 then ⌊q⌋
  else if 1 / 2 < q - ⌊q⌋ then ⌊q⌋ + 1
  else if ⌊q⌋ % 2 = 0 then ⌊q⌋ else ⌊q⌋ + 1

/-- One entry of `center_coords` (grid.py 299-308). -/
def centerCoord (T : Xform) (i j : Int) : ℚ × ℚ :=
  (T.x0 + ((j : ℚ) + 1 / 2) * T.dx + ((i : ℚ) + 1 / 2) * T.sx,
   T.y0 + ((i : ℚ) + 1 / 2) * T.dy + ((j : ℚ) + 1 / 2) * T.sy)

/-- `CoordinateGenerator.__getitem__` for two integers (coordgen.py 47-63). -/
def coordGen (T : Xform) (i j : Int) : ℚ × ℚ :=
  (T.x0 + (j : ℚ) * T.dx + (i : ℚ) * T.sx + 1 / 2 * T.dx + 1 / 2 * T.sx,
   T.y0 + (i : ℚ) * T.dy + (j : ℚ) * T.sy + 1 / 2 * T.dy + 1 / 2 * T.sy)

/-- `center_llref` (grid.py 258-264). -/
def centerLlref (T : Xform) : ℚ × ℚ :=
  (T.x0 + 1 / 2 * (T.dx + T.sx), T.y0 + 1 / 2 * (T.dy + T.sy))

/-- `positions` for a single point (grid.py 762-786, crfuncs.pyx 11-33).  `none` where a divisor is
zero: C division then yields an infinity or NaN. -/
def positions (T : Xform) (x y : ℚ) : Option (ℚ × ℚ) :=
  if T.dx * T.dy - T.sx * T.sy = 0 ∨ T.dy = 0 then none
  else
    let j_ := (T.dy * x - T.dy * T.x0 + T.sx * T.y0 - T.sx * y) / (T.dx * T.dy - T.sx * T.sy)
    let i_ := (y - T.y0 - j_ * T.sy) / T.dy
    some (i_ - 1 / 2, j_ - 1 / 2)

/-- `_indices` for a single point (grid.py 788-801).  Simplification: the cast to 32-bit integers
does not overflow. -/
def indicesRaw (T : Xform) (x y : ℚ) : Option (Int × Int) :=
  (positions T x y).map fun p => (rint p.1, rint p.2)

/-- `indices` for a single point (grid.py 803-828).  The outer `none` stands for the undefined
positions of `positions`. -/
def indices (T : Xform) (ny nx : Nat) (x y : ℚ) : Option (Except Err (Int × Int)) :=
  (indicesRaw T x y).map fun p =>
    if p.1 < 0 ∨ p.1 > (ny : Int) - 1 ∨ p.2 < 0 ∨ p.2 > (nx : Int) - 1 then .error .indexError
    else .ok p

/-- `indices` for a vector of points (grid.py 816-822): `min` and `max` of the index vectors are
compared; on an empty vector `min` raises `ValueError`. -/
def indicesVec (T : Xform) (ny nx : Nat) (pts : List (ℚ × ℚ)) :
    Option (Except Err (List (Int × Int))) :=
  (pts.mapM fun p => indicesRaw T p.1 p.2).map fun ps =>
    match ps with
    | [] => .error .valueError
    | q :: qs =>
      if (qs.map Prod.fst).foldl min q.1 < 0 ∨ (qs.map Prod.fst).foldl max q.1 > (ny : Int) - 1 ∨
         (qs.map Prod.snd).foldl min q.2 < 0 ∨ (qs.map Prod.snd).foldl max q.2 > (nx : Int) - 1
      then .error .indexError else .ok ps

/-- The lambda `sgn` of `extent` (grid.py 365): the division `a/abs(a)`. -/
def sgn (a : ℚ) : ℚ := if a = 0 then 0 else a / |a|

/-- Far bound along one axis in `extent` (grid.py 366-374). -/
def farBound (x0 d s : ℚ) (n m : ℚ) : ℚ :=
  if sgn d = sgn s then x0 + d * n + s * m else x0 + d * n - s * m

/-- `extent` (grid.py 342-387) with `crs=None`; `center` selects `reference='center'`.  Result
`(xmin, xmax, ymin, ymax)`. -/
def extent (T : Xform) (ny nx : Nat) (center : Bool) : ℚ × ℚ × ℚ × ℚ :=
  let p := if center then centerLlref T else (T.x0, T.y0)
  let n : ℚ := if center then -1 else 0
  let x1 := farBound p.1 T.dx T.sx (nx + n) (ny + n)
  let y1 := farBound p.2 T.dy T.sy (ny + n) (nx + n)
  (min p.1 x1, max p.1 x1, min p.2 y1, max p.2 y1)

/-- `bbox` (grid.py 338-340): `(xmin, ymin, xmax, ymax)` of the outer edges. -/
def bbox (T : Xform) (ny nx : Nat) : ℚ × ℚ × ℚ × ℚ :=
  let e := extent T ny nx false
  (e.1, e.2.2.1, e.2.1, e.2.2.2)

/-- One entry of `vertex_coords` (grid.py 310-320): the rows filled are `range(size[0])`, so the last
row keeps whatever `np.empty` returned (`none`). -/
def vertexCoord (T : Xform) (ny nx : Nat) (i j : Nat) : Option (ℚ × ℚ) :=
  if i < ny ∧ j ≤ nx then
    some (T.x0 + (j : ℚ) * T.dx + (i : ℚ) * T.sx, T.y0 + (i : ℚ) * T.dy + (j : ℚ) * T.sy)
  else none

end Karta.Grid
