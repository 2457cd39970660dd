import Verif.Vec.Objects

/-!
# Membership: `geometry in collection`

Model of the operator `in` for `Multipoint`, `Multiline` and `Multipolygon` (`Multipart.__contains__`, karta/vector/geometry.py 1223-1227,
with `__getitem__` for integers, 1271-1275, 1580-1584, 1705-1713) and for `Line` and `Polygon`, where Python iterates over the points
(385-386).  Geometries and their equality are those of `Verif.Vec.Objects`.
-/

namespace Karta.Obj
open Karta

/-- A collection: the kind of its parts, their vertices and holes, one row of attributes per part, the common attributes and the
coordinate system. -/
structure Coll (P R : Type) where
  kind : Kind
  parts : List (List (List Fl) × List (List (List Fl)))
  rows : List R
  props : P
  crs : Crs

variable {P D R : Type} [DecidableEq P] [DecidableEq D]

/-- `collection[i]` for a natural number (geometry.py 1271-1275, 1580-1584, 1705-1713): first the row is looked up, then the vertices;
either raises `IndexError` beyond the end.  `merge row props` is `properties = self.d[key]; properties.update(self.properties)`.
Simplification: the holes of a polygon carry its attributes as well, which plays no role in comparisons. -/
def Coll.part (merge : R → P → P) (none' : D) (c : Coll P R) (i : Nat) : Except Err (Geo P D) :=
  match c.rows[i]? with
  | none => .error .indexError
  | some r =>
    match c.parts[i]? with
    | none => .error .indexError
    | some v => .ok ⟨c.kind, v.1, v.2, merge r c.props, none', c.crs⟩

/-- `other in (part for part in self)`: Python asks for the parts one after the other, compares each with `other`, and stops at the
first that is equal or when `IndexError` is raised.  `fuel` bounds the number of requests. -/
def scan (part : Nat → Except Err (Geo P D)) (other : Geo P D) : Nat → Nat → Except Err Bool
  | 0, _ => .ok false
  | fuel + 1, i =>
    match part i with
    | .error .indexError => .ok false
    | .error e => .error e
    | .ok p =>
      match p.eq other with
      | .error e => .error e
      | .ok true => .ok true
      | .ok false => scan part other fuel (i + 1)

/-- `other in collection` (geometry.py 1223-1227); there are no more parts than rows, so the bound is never reached. -/
def Coll.has (merge : R → P → P) (none' : D) (c : Coll P R) (other : Geo P D) : Except Err Bool :=
  scan (c.part merge none') other (c.rows.length + 1) 0

/-- `other in line` and `other in polygon`: Python's default, over the iterator of geometry.py 385-386. -/
def Geo.has (none' : D) (g other : Geo P D) : Except Err Bool :=
  scan (fun i => g.item none' i) other g.verts.length 0

end Karta.Obj
