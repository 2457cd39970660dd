import Verif.Vec.Vertices

/-!
# Polygons with holes and coordinate systems

Model of `Polygon.contains` and `Polygon.area` for polygons whose sub-polygons have coordinate systems of their own
(karta/vector/geometry.py 135-140, 1141-1143, 1168-1174) and of the systems given to polygons read from shapefiles
(karta/vector/read.py 23-39, 168-192; karta/vector/geometry.py 35-36).

Simplifications: `inRing` stands for the test of the ring alone (contains.pyx 13-66, chosen by the kind of system), `ringArea` for the area of
the ring alone (geometry.py 1119-1142); both are parameters that depend on the system and on the ring only.
-/

namespace Karta.Systems
open Karta Karta.Obj Karta.Verts

/-- A `Polygon`: system, ring and sub-polygons. -/
inductive SPoly where
  | mk (crs : Crs) (ring : List XY) (subs : List SPoly)

/-- `crs`. -/
def SPoly.crs : SPoly → Crs
  | .mk c _ _ => c

mutual
/-- `Polygon.contains(point)` (geometry.py 1168-1174) for a point at `pt` in system `pc`. -/
def SPoly.contains (move : Crs → Crs → XY → XY) (inRing : Crs → List XY → XY → Bool) (pc : Crs) (pt : XY) : SPoly → Except Err Bool
  | .mk c ring subs =>
    match pointVertex move pc (pt, none) (some c) with
    | .error e => .error e
    | .ok v =>
      if inRing c ring v.1 then
        match anyContains move inRing pc pt subs with
        | .error e => .error e
        | .ok b => .ok (!b)
      else .ok false
/-- `any(p.contains(point) for p in self.subs)`: every sub-polygon is asked about the point itself (geometry.py 1171, 1174). -/
def anyContains (move : Crs → Crs → XY → XY) (inRing : Crs → List XY → XY → Bool) (pc : Crs) (pt : XY) : List SPoly → Except Err Bool
  | [] => .ok false
  | p :: ps =>
    match p.contains move inRing pc pt with
    | .error e => .error e
    | .ok b => if b then .ok true else anyContains move inRing pc pt ps
end

mutual
/-- `Polygon.area` (geometry.py 1109-1143). -/
def SPoly.area (ringArea : Crs → List XY → ℚ) : SPoly → ℚ
  | .mk c ring subs => |ringArea c ring| - areas ringArea subs
/-- `sum(sub.area for sub in self.subs)` (geometry.py 1143). -/
def areas (ringArea : Crs → List XY → ℚ) : List SPoly → ℚ
  | [] => 0
  | p :: ps => p.area ringArea + areas ringArea ps
end

/-- `_from_shape` for a polygon (read.py 37-39): all systems are the default, which is Cartesian (geometry.py 35-36). -/
def fromShape (dflt : Crs) : List (List XY) → Except Err SPoly
  | [] => .error .indexError
  | r :: rs => .ok (.mk dflt r (rs.map fun s => .mk dflt s []))

/-- `g.crs = crs` (read.py 187-189). -/
def SPoly.setCrs (c : Crs) : SPoly → SPoly
  | .mk _ ring subs => .mk c ring subs

/-- A polygon read by `read_shapefile` from a layer in system `c` (read.py 168-192). -/
def readPolygon (dflt c : Crs) (rings : List (List XY)) : Except Err SPoly :=
  match fromShape dflt rings with
  | .error e => .error e
  | .ok p => .ok (p.setCrs c)

end Karta.Systems
