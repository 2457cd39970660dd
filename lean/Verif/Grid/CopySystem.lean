import Verif.Vec.Vertices

/-!
# The coordinate system of a copied grid

Model of `Grid.copy` (karta/raster/grid.py 50-52), which copies the coordinate system as well, and of the methods that compare the system of
the grid with another: `sample` (grid.py 1005-1011), `mask_by_poly` (grid.py 647), `extent` (grid.py 376-387), `coordinates` (grid.py 295-297;
karta/raster/coordgen.py 4-11) and `clip` (grid.py 537-543).

Simplifications: what the methods do with the positions is the subject of other modules; here is what they do to get them.
-/

namespace Karta.CopySys
open Karta Karta.Obj Karta.Verts

/-- `copy.deepcopy` of a coordinate system: a new object, here with identity `n`, with the same attributes. -/
def copied (n : Nat) (c : Crs) : Crs := { c with obj := n }

/-- `point.vertex(crs=grid.crs)[:2]` in `sample` (grid.py 1008-1009). -/
def pointIn (move : Crs → Crs → XY → XY) (grid own : Crs) (v : Vertex) : Except Err XY :=
  match pointVertex move own v (some grid) with
  | .error e => .error e
  | .ok w => .ok w.1

/-- `geometry.coords(crs=grid.crs)` in `sample` and `mask_by_poly` (grid.py 1010-1011, 647). -/
def coordsIn (move : Crs → Crs → XY → XY) (grid own : Crs) (v : Coords) : Except Err (List XY) := coords move own v (some grid)

/-- The corners in `extent(crs)` (grid.py 376-382). -/
def cornersIn (move : Crs → Crs → XY → XY) (grid : Crs) (ps : List XY) (crs : Option Crs) : Except Err (List XY) :=
  match crs with
  | none => .ok ps
  | some c => if c.eq grid then .ok ps else transformAll move grid c ps

/-- The positions computed by `coordinates(crs)` (coordgen.py 4-11). -/
def positionsIn (move : Crs → Crs → XY → XY) (grid : Crs) (ps : List XY) (crs : Option Crs) : Except Err (List XY) :=
  match crs with
  | none => .ok ps
  | some c => if grid.eq c then .ok ps else transformAll move grid c ps

/-- The corners of the box in `clip(…, crs)` (grid.py 537-538). -/
def clipIn (move : Crs → Crs → XY → XY) (grid : Crs) (ps : List XY) (crs : Option Crs) : Except Err (List XY) :=
  match crs with
  | none => .ok ps
  | some c => transformAll move c grid ps

end Karta.CopySys
