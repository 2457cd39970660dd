import Verif.Vec.Sweep
import Verif.Vec.QuadTree
import Verif.Vec.Polygon
import Verif.Vec.Objects

/-!
# Queries between geometries in different coordinate systems

Model of `intersects`, `intersections`, `Multipoint.within_radius` and `Multipoint.within_polygon` (karta/vector/geometry.py 448-457, 633-644,
676-722, 1350-1410) when the two geometries have coordinate systems of their own.

Simplifications: planar systems (the branches for `GeographicalCRS` are left out), flat geometries; `move a b` stands for the conversion from
system `a` to system `b` of pyproj.
-/

namespace Karta.CrossSys
open Karta Karta.Vec Karta.Obj

/-- `self.crs.transform(crs, …)` (crs.py 200-202, 245-246, 297-298): a Cartesian system raises, and has no `_proj` as a target. -/
def transform (move : Crs → Crs → Pt → Pt) (own c : Crs) (ps : List Pt) : Except Err (List Pt) :=
  if own.kind = .cartesian then .error .notImplemented
  else if c.kind = .cartesian then .error .attributeError
  else .ok (ps.map (move own c))

/-- The vertices of which `bbox(crs)` takes the bounds (geometry.py 447-452, 633-639). -/
def shown (move : Crs → Crs → Pt → Pt) (own c : Crs) (ps : List Pt) : Except Err (List Pt) :=
  if c.eq own then .ok ps else transform move own c ps

/-- `self.intersects(other)` (geometry.py 676-693): the box of `other` is that in the system of `self`, the vertices are its own. -/
def intersectsIn (move : Crs → Crs → Pt → Pt) (ca : Crs) (ringA : Bool) (as : List Pt) (cb : Crs) (ringB : Bool) (bs : List Pt) :
    Except Err Bool :=
  match shown move cb ca bs with
  | .error e => .error e
  | .ok bs' =>
    match bbox as, bbox bs' with
    | some a, some b => if bboxesOverlap a b then Sweep.intersects ringA as ringB bs else .ok false
    | _, _ => Sweep.intersects ringA as ringB bs

/-- `self.intersections(other, keep_duplicates=True)` (geometry.py 695-715) of a geometry in a Cartesian or projected
system (`ProjectedCRS` is a subclass of `CartesianCRS`, crs.py 256): the system of `other` is not looked at. -/
def intersectionsIn (_ca : Crs) (ringA : Bool) (as : List Pt) (_cb : Crs) (ringB : Bool) (bs : List Pt) : List Pt :=
  allIntersections ringA as ringB bs

/-- `point.vertex(crs)` (geometry.py 135-140) of a flat point in system `own`. -/
def vertexIn (move : Crs → Crs → Pt → Pt) (own c : Crs) (p : Pt) : Except Err Pt :=
  if c.eq own then .ok p
  else if own.kind = .cartesian then .error .notImplemented
  else if c.kind = .cartesian then .error .attributeError
  else .ok (move own c p)

/-- The loop over candidates (geometry.py 1369-1372, 1396-1399): `self[i]`, in system `own`, is converted to `c` and tested. -/
def confirm (move : Crs → Crs → Pt → Pt) (own c : Crs) (pts : List Pt) (test : Pt → Bool) : List Nat → Except Err (List Nat)
  | [] => .ok []
  | i :: is =>
    match pts[i]? with
    | none => .error .indexError
    | some p =>
      match vertexIn move own c p with
      | .error e => .error e
      | .ok q =>
        match confirm move own c pts test is with
        | .error e => .error e
        | .ok js => .ok (if test q then i :: js else js)

/-- `within_radius` with an index (geometry.py 1363-1373): the box is around the coordinates of the point in its own system `pc`. -/
def withinRadiusIn (move : Crs → Crs → Pt → Pt) (s : QT.State) (own : Crs) (pts : List Pt) (pc : Crs) (c : Pt) (r : ℚ) : Except Err (List Nat) :=
  match confirm move own pc pts (fun q => QT.nearer c q r) (QT.search s ⟨c.x - r, c.y - r, c.x + r, c.y + r⟩) with
  | .error e => .error e
  | .ok is => .ok (QT.sortInts is)

/-- `within_radius` without one (geometry.py 1374-1376). -/
def withinRadiusPlain (move : Crs → Crs → Pt → Pt) (own : Crs) (pts : List Pt) (pc : Crs) (c : Pt) (r : ℚ) : Except Err (List Nat) :=
  confirm move own pc pts (fun q => QT.nearer c q r) (List.range pts.length)

/-- `within_polygon` with an index (geometry.py 1392-1400) for a polygon in system `pc`; a polygon without vertices has a box of NaNs, in
which nothing lies. -/
def withinPolygonIn (move : Crs → Crs → Pt → Pt) (s : QT.State) (own : Crs) (pts : List Pt) (pc : Crs) (ring : List Pt) (subs : List Poly) :
    Except Err (List Nat) :=
  match shown move pc own ring with
  | .error e => .error e
  | .ok ring' =>
    match bbox ring' with
    | none => .ok []
    | some q =>
      match confirm move own pc pts (fun v => (Poly.mk ring subs).contains v) (QT.search s q) with
      | .error e => .error e
      | .ok is => .ok (QT.sortInts is)

/-- `within_polygon` without one (geometry.py 1402-1403). -/
def withinPolygonPlain (move : Crs → Crs → Pt → Pt) (own : Crs) (pts : List Pt) (pc : Crs) (ring : List Pt) (subs : List Poly) :
    Except Err (List Nat) :=
  confirm move own pc pts (fun v => (Poly.mk ring subs).contains v) (List.range pts.length)

end Karta.CrossSys
