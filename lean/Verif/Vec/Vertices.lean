import Verif.Vec.Objects

/-!
# Vertices in another coordinate system

Model of `vertex`, `vertices` and `coords` of all geometries (karta/vector/geometry.py 135-140, 393-426, 1640-1662, 1785-1816), of the
construction of a `Multipolygon` from polygons (1681-1698), of `+` (108-109, 842-844, 1009-1011), of `_reproject`
(karta/vector/utilities.py 24-27) and of `transform` of the coordinate systems (karta/crs.py 200-202, 245-246, 297-298).

Simplifications: coordinates are rationals.  `CoordString` (package coordstring) is a list of vertices that all have two or all have three
coordinates; `vectors()` gives its columns as a tuple and `asarray()` its rows.  `pyproj.transform` of two numbers or of two arrays returns
a tuple and converts the positions one by one: this is the parameter `move`.
-/

namespace Karta.Verts
open Karta Karta.Obj

/-- A position on the ground. -/
abbrev XY := ℚ × ℚ

/-- `CoordString` or an array of vertices: with two or with three columns. -/
inductive Coords where
  | flat (ps : List XY)
  | tall (ps : List (XY × ℚ))
  deriving DecidableEq

/-- Positions without heights: `asarray()[:,:2]`, `vectors()[:2]`, `v[:2]`. -/
def Coords.ground : Coords → List XY
  | .flat ps => ps
  | .tall ps => ps.map Prod.fst

/-- `crs1.transform(crs2, x, y)` (crs.py 200-202, 245-246, 297-298): a Cartesian system raises, and has no `_proj` as a target. -/
def transform (move : Crs → Crs → XY → XY) (a b : Crs) (p : XY) : Except Err XY :=
  if a.kind = .cartesian then .error .notImplemented
  else if b.kind = .cartesian then .error .attributeError
  else .ok (move a b p)

/-- `crs1.transform(crs2, xs, ys)` with arrays: the checks are made once, also for no positions. -/
def transformAll (move : Crs → Crs → XY → XY) (a b : Crs) (ps : List XY) : Except Err (List XY) :=
  if a.kind = .cartesian then .error .notImplemented
  else if b.kind = .cartesian then .error .attributeError
  else .ok (ps.map (move a b))

/-- The vertex of a point: two or three coordinates. -/
abbrev Vertex := XY × Option ℚ

/-- `Point.vertex(crs)` (geometry.py 135-140). -/
def pointVertex (move : Crs → Crs → XY → XY) (own : Crs) (v : Vertex) (crs : Option Crs) : Except Err Vertex :=
  match crs with
  | none => .ok v
  | some c =>
    if c.eq own then .ok v
    else
      match transform move own c v.1 with
      | .error e => .error e
      | .ok p => .ok (p, none)

/-- `MultiVertexMixin.coords(crs)` (geometry.py 393-404) for lines, polygons and multipoints, as a list of positions. -/
def coords (move : Crs → Crs → XY → XY) (own : Crs) (v : Coords) (crs : Option Crs) : Except Err (List XY) :=
  match crs with
  | none => .ok v.ground
  | some c => if c.eq own then .ok v.ground else transformAll move own c v.ground

/-- `MultiVertexMixin.vertices(crs, drop_z)` (geometry.py 406-426) for lines, polygons and multipoints.  The systems are compared by
identity.  `vt` is a tuple and has no method `append` (424-425). -/
def vertices (move : Crs → Crs → XY → XY) (own : Crs) (v : Coords) (crs : Option Crs) (dropZ : Bool) : Except Err Coords :=
  match crs with
  | none => .ok (if dropZ then .flat v.ground else v)
  | some c =>
    if c.obj = own.obj then .ok (if dropZ then .flat v.ground else v)
    else
      match transformAll move own c v.ground with
      | .error e => .error e
      | .ok ps =>
        match v, dropZ with
        | .tall _, false => .error .attributeError
        | _, _ => .ok (.flat ps)

/-- `[_reproject(v[:2], self.crs, crs) for v in line]` (geometry.py 1653, 1803-1804): one call for each vertex. -/
def reprojectEach (move : Crs → Crs → XY → XY) (own c : Crs) : List XY → Except Err (List XY)
  | [] => .ok []
  | p :: ps =>
    match transform move own c p with
    | .error e => .error e
    | .ok q =>
      match reprojectEach move own c ps with
      | .error e => .error e
      | .ok qs => .ok (q :: qs)

/-- The loop over the parts of `Multiline.vertices` (geometry.py 1652-1654). -/
def reprojectParts (move : Crs → Crs → XY → XY) (own c : Crs) : List Coords → Except Err (List Coords)
  | [] => .ok []
  | v :: vs =>
    match reprojectEach move own c v.ground with
    | .error e => .error e
    | .ok ps =>
      match reprojectParts move own c vs with
      | .error e => .error e
      | .ok r => .ok (.flat ps :: r)

/-- `Multiline.vertices(crs)` (geometry.py 1640-1655). -/
def multilineVertices (move : Crs → Crs → XY → XY) (own : Crs) (parts : List Coords) (crs : Option Crs) : Except Err (List Coords) :=
  match crs with
  | none => .ok parts
  | some c => if c.eq own then .ok parts else reprojectParts move own c parts

/-- `v.T`: the columns of an array (geometry.py 1661, 1814). -/
def columns : Coords → List (List ℚ)
  | .flat ps => [ps.map Prod.fst, ps.map Prod.snd]
  | .tall ps => [ps.map fun p => p.1.1, ps.map fun p => p.1.2, ps.map Prod.snd]

/-- `Multiline.coords(crs)` (geometry.py 1657-1662). -/
def multilineCoords (move : Crs → Crs → XY → XY) (own : Crs) (parts : List Coords) (crs : Option Crs) :
    Except Err (List (List (List ℚ))) :=
  match multilineVertices move own parts crs with
  | .error e => .error e
  | .ok vs => .ok (vs.map columns)

/-! ### Collections of polygons -/

/-- An element of `Multipolygon._vertices[i]`: a `CoordString`, or a `Polygon` object with its own system (geometry.py 1688-1689). -/
inductive RingObj where
  | string (v : Coords)
  | polygon (v : Coords) (crs : Crs)

/-- A `Polygon`: its ring, its sub-polygons and its system.  Simplification: sub-polygons of sub-polygons are left out, and sub-polygons are
in the system of the polygon. -/
structure Polygon where
  ring : Coords
  subs : List Coords
  crs : Crs

/-- The loop of the constructor over polygons (geometry.py 1686-1690): the rings are converted, the sub-polygons are not. -/
def ringsOfPolygons (move : Crs → Crs → XY → XY) (c : Crs) : List Polygon → Except Err (List (List RingObj))
  | [] => .ok []
  | p :: ps =>
    match vertices move p.crs p.ring (some c) false with
    | .error e => .error e
    | .ok v =>
      match ringsOfPolygons move c ps with
      | .error e => .error e
      | .ok r => .ok ((.string v :: p.subs.map fun s => .polygon s p.crs) :: r)

/-- `Multipolygon(rings)` (geometry.py 1694-1698). -/
def ringsOfArrays (ps : List (List Coords)) : List (List RingObj) := ps.map fun p => p.map .string

/-- `[v.asarray() for v in poly_vertices]` (geometry.py 1796): a `Polygon` has no such method. -/
def ringArrays : List RingObj → Except Err (List Coords)
  | [] => .ok []
  | .polygon _ _ :: _ => .error .attributeError
  | .string v :: r =>
    match ringArrays r with
    | .error e => .error e
    | .ok vs => .ok (v :: vs)

/-- The loop for the own system (geometry.py 1794-1797). -/
def polygonArrays : List (List RingObj) → Except Err (List (List Coords))
  | [] => .ok []
  | p :: ps =>
    match ringArrays p with
    | .error e => .error e
    | .ok vs =>
      match polygonArrays ps with
      | .error e => .error e
      | .ok r => .ok (vs :: r)

/-- The vertices met when iterating over a ring (geometry.py 1803-1804): coordinates, or the points of a polygon object, whose `v[:2]` are
its coordinates (geometry.py 84-85). -/
def RingObj.ground : RingObj → List XY
  | .string v => v.ground
  | .polygon v _ => v.ground

/-- The loop over the rings of a polygon for another system (geometry.py 1802-1804). -/
def reprojectRings (move : Crs → Crs → XY → XY) (own c : Crs) : List RingObj → Except Err (List Coords)
  | [] => .ok []
  | v :: vs =>
    match reprojectEach move own c v.ground with
    | .error e => .error e
    | .ok ps =>
      match reprojectRings move own c vs with
      | .error e => .error e
      | .ok r => .ok (.flat ps :: r)

/-- The loop over the polygons for another system (geometry.py 1800-1805). -/
def reprojectPolygons (move : Crs → Crs → XY → XY) (own c : Crs) : List (List RingObj) → Except Err (List (List Coords))
  | [] => .ok []
  | p :: ps =>
    match reprojectRings move own c p with
    | .error e => .error e
    | .ok vs =>
      match reprojectPolygons move own c ps with
      | .error e => .error e
      | .ok r => .ok (vs :: r)

/-- `Multipolygon.vertices(crs)` (geometry.py 1785-1806). -/
def multipolygonVertices (move : Crs → Crs → XY → XY) (own : Crs) (parts : List (List RingObj)) (crs : Option Crs) :
    Except Err (List (List Coords)) :=
  match crs with
  | none => polygonArrays parts
  | some c => if c.eq own then polygonArrays parts else reprojectPolygons move own c parts

/-- `Multipolygon.coords(crs)` (geometry.py 1808-1816). -/
def multipolygonCoords (move : Crs → Crs → XY → XY) (own : Crs) (parts : List (List RingObj)) (crs : Option Crs) :
    Except Err (List (List (List (List ℚ)))) :=
  match multipolygonVertices move own parts crs with
  | .error e => .error e
  | .ok vs => .ok (vs.map fun p => p.map columns)

/-! ### Adding geometries -/

/-- `point + point` (geometry.py 108-109): the vertices handed to the coordinate string of the multipoint, in the system of the first. -/
def addPoints (move : Crs → Crs → XY → XY) (a : Vertex) (ca : Crs) (b : Vertex) (cb : Crs) : Except Err (List Vertex × Crs) :=
  match pointVertex move cb b (some ca) with
  | .error e => .error e
  | .ok w => .ok ([a, w], ca)

/-- `line + line` (geometry.py 842-844): the parts of the multiline and its system. -/
def addLines (move : Crs → Crs → XY → XY) (a : Coords) (ca : Crs) (b : Coords) (cb : Crs) : Except Err (List Coords × Crs) :=
  match vertices move cb b (some ca) false with
  | .error e => .error e
  | .ok w => .ok ([a, w], ca)

/-- `polygon + polygon` (geometry.py 1009-1011): the parts of the multipolygon, each a list of rings, and its system. -/
def addPolygons (move : Crs → Crs → XY → XY) (a b : Polygon) : Except Err (List (List Coords) × Crs) :=
  match vertices move b.crs b.ring (some a.crs) false with
  | .error e => .error e
  | .ok w => .ok ([[a.ring], [w]], a.crs)

end Karta.Verts
