import Verif.Grid.Coord
import Verif.Grid.Window

/-!
# Extents and clips in another coordinate system

Model of `extent` (karta/raster/grid.py 342-387) and `clip` (grid.py 525-562) with the argument `crs`.

Simplifications: the conversion between the two systems is a total function `move` of positions, applied to each position by itself; the
systems are different, so that `extent` converts (Grid/CopySystem.lean is about the comparison).
-/

namespace Karta.ExtIn
open Karta Karta.Grid

/-- The corners `x0, x1, y0, y1` that `extent` computes before it looks at `crs` (grid.py 353-374). -/
def farCorners (T : Xform) (ny nx : Nat) (center : Bool) : ℚ × ℚ × ℚ × ℚ :=
  let p := if center then centerLlref T else (T.x0, T.y0)
  let n : ℚ := if center then -1 else 0
  (p.1, farBound p.1 T.dx T.sx (nx + n) (ny + n), p.2, farBound p.2 T.dy T.sy (ny + n) (nx + n))

/-- Least and largest of four numbers (grid.py 383-386, 540-543). -/
def least (a b c d : ℚ) : ℚ := min (min (min a b) c) d
/-- See `least`. -/
def largest (a b c d : ℚ) : ℚ := max (max (max a b) c) d

/-- The box around the images of the corners of the box `(x0, x1, y0, y1)`: `(xmin, xmax, ymin, ymax)` (grid.py 379-386 and 538-543). -/
def boxOf (move : ℚ × ℚ → ℚ × ℚ) (r : ℚ × ℚ × ℚ × ℚ) : ℚ × ℚ × ℚ × ℚ :=
  let p0 := move (r.1, r.2.2.1)
  let p1 := move (r.1, r.2.2.2)
  let p2 := move (r.2.1, r.2.2.1)
  let p3 := move (r.2.1, r.2.2.2)
  (least p0.1 p1.1 p2.1 p3.1, largest p0.1 p1.1 p2.1 p3.1, least p0.2 p1.2 p2.2 p3.2, largest p0.2 p1.2 p2.2 p3.2)

/-- `extent(reference, crs)` for a system other than the grid's (grid.py 342-387); `move` leads from the system of the grid to `crs`. -/
def extentIn (move : ℚ × ℚ → ℚ × ℚ) (T : Xform) (ny nx : Nat) (center : Bool) : ℚ × ℚ × ℚ × ℚ :=
  boxOf move (farCorners T ny nx center)

/-- `clip(xmin, xmax, ymin, ymax, crs)` (grid.py 525-562); `move` leads from `crs` to the system of the grid. -/
def clipIn {α : Type} (zero garb : α) (move : ℚ × ℚ → ℚ × ℚ) (g : RGrid α) (xmin xmax ymin ymax : ℚ) : Option (Except Err (RGrid α)) :=
  let b := boxOf move (xmin, xmax, ymin, ymax)
  g.clip zero garb b.1 b.2.1 b.2.2.1 b.2.2.2

end Karta.ExtIn
