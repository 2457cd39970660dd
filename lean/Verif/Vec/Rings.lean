import Verif.Vec.MultiQuery

/-!
# Closed and open polygons

Model of the flag `ring` of coordinate strings: which polygons have it (karta/vector/geometry.py 336-354, 971-973, 991-998, 1681-1698,
1705-1713) and what they do without it (karta/vector/contains.pyx 13-17, 52-53; karta/vector/intersection.pyx 50-53, 206-209;
karta/vector/geometry.py 681-693, 1168-1174).

Simplifications: planar coordinates are rationals and there is one coordinate system.  `CoordString(v)` of the package coordstring makes a
string that is not a ring, `CoordString(v, ring=True)` one that is.
-/

namespace Karta.Rings
open Karta Karta.Vec

/-- A `CoordString`: its vertices and whether it is closed. -/
structure CS where
  ring : Bool
  pts : List Pt
  deriving DecidableEq

/-- What the constructors of lines and polygons take: a coordinate string, coordinates, or points. -/
inductive Input where
  | string (c : CS)
  | coords (ps : List Pt)
  | points (ps : List Pt)

/-- `MultiVertexBase.__init__(vertices, ring)` (geometry.py 336-354): a coordinate string is taken as it is. -/
def baseInit (ring : Bool) : Input → CS
  | .string c => c
  | .coords ps => ⟨ring, ps⟩
  | .points ps => ⟨ring, ps⟩

/-- A `Polygon` object: its coordinate string and its sub-polygons. -/
inductive PolyObj where
  | mk (cs : CS) (subs : List PolyObj)

/-- `_vertices`. -/
def PolyObj.cs : PolyObj → CS
  | .mk c _ => c

/-- `subs`. -/
def PolyObj.subs : PolyObj → List PolyObj
  | .mk _ s => s

/-- `Line(vertices)`. -/
def lineOf (i : Input) : CS := baseInit false i

/-- `Polygon(vertices, subs)` (geometry.py 989-998). -/
def polygonOf (i : Input) (subs : List PolyObj) : PolyObj := .mk (baseInit true i) subs

/-- `Line.to_polygon()` (geometry.py 971-973). -/
def toPolygon (line : CS) : PolyObj := polygonOf (.string line) []

mutual
/-- `Polygon.contains(point)` (geometry.py 1168-1174; contains.pyx 13-42). -/
def PolyObj.contains (pt : Pt) : PolyObj → Except Err Bool
  | .mk cs subs =>
    if cs.ring = false then .error .typeError
    else if ringContains pt cs.pts then
      match anyContains pt subs with
      | .error e => .error e
      | .ok b => .ok (!b)
    else .ok false
/-- `any(p.contains(point) for p in self.subs)` (geometry.py 1171, 1174): stops at the first that contains the point. -/
def anyContains (pt : Pt) : List PolyObj → Except Err Bool
  | [] => .ok false
  | p :: ps =>
    match p.contains pt with
    | .error e => .error e
    | .ok b => if b then .ok true else anyContains pt ps
end

/-- `intersections(other, keep_duplicates=True)` in a Cartesian system (geometry.py 695-711; intersection.pyx 41-70). -/
def crossings (a b : CS) : List Pt := allIntersections a.ring a.pts b.ring b.pts

/-- `intersects(other)` in a planar system (geometry.py 676-693). -/
def meets (a b : CS) : Except Err Bool := Sweep.geomIntersects a.ring a.pts b.ring b.pts

/-! ### Collections of polygons -/

/-- An element of `Multipolygon._vertices[i]` (geometry.py 1686-1690, 1697). -/
inductive RingObj where
  | string (c : CS)
  | object (p : PolyObj)

/-- `Multipolygon(polygons)` (geometry.py 1686-1690): the vertices of the polygons are copied into a new string. -/
def ofPolygons (ps : List PolyObj) : List (List RingObj) := ps.map fun p => .string ⟨false, p.cs.pts⟩ :: p.subs.map .object

/-- `Multipolygon(parts)` for lists of rings (geometry.py 1694-1698). -/
def ofArrays (ps : List (List (List Pt))) : List (List RingObj) := ps.map fun p => p.map fun r => .string ⟨false, r⟩

/-- What `Polygon(vertices)` gets for a ring of the collection (geometry.py 1711-1713): iterating over a polygon object gives its points. -/
def RingObj.input : RingObj → Input
  | .string c => .string c
  | .object p => .points p.cs.pts

/-- The polygon made of the rings of a part (geometry.py 1709-1713). -/
def partPolygon : List RingObj → Except Err PolyObj
  | [] => .error .indexError
  | r :: rs => .ok (polygonOf r.input (rs.map fun s => polygonOf s.input []))

/-- `multipolygon[i]` (geometry.py 1705-1713). -/
def item (m : List (List RingObj)) (i : Int) : Except Err PolyObj :=
  match Py.index? m i with
  | none => .error .indexError
  | some p => partPolygon p

/-- A part as the queries of `Multi` see it (geometry.py 1513-1521, 1539-1542). -/
def asPart : PolyObj → Option Multi.Part
  | .mk cs _ =>
    match cs.pts with
    | [] => none
    | p :: ps => some ⟨cs.ring, p, ps⟩

end Karta.Rings
