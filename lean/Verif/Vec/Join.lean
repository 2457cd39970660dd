import Verif.Table.Model
import Verif.Vec.Basic

/-!
# Merging geometries

Model of `Multipoint.merge`, `Multiline.merge`, `Multipolygon.merge` (karta/vector/geometry.py 1313-1350, 1604-1638, 1733-1770),
`Multiline.vertices`, `Multipolygon.vertices` and the construction of a `Multipolygon` from `Polygon`s.  Simplification: all operands are in
the coordinate system of the result, so nothing is projected.
-/

namespace Karta.Join
open Karta Karta.Tab

variable {F V : Type} [DecidableEq F]

/-- `CoordString.asarray()`: a table of coordinates with `rank` columns. -/
structure Arr where
  rank : Nat
  rows : List (List ℚ)

/-- `v[:,:k]` (geometry.py 1347, 1635). -/
def Arr.cut (k : Nat) (a : Arr) : Arr := ⟨min k a.rank, a.rows.map fun r => r.take k⟩

/-- `min(arr.shape[1] for arr in vertices)` (geometry.py 1343, 1631); an empty sequence raises `ValueError`. -/
def minRank : List Arr → Except Err Nat
  | [] => .error .valueError
  | a :: as => .ok (as.foldl (fun m b => min m b.rank) a.rank)

/-- `max(arr.shape[1] for arr in vertices)` (geometry.py 1344, 1632). -/
def maxRank : List Arr → Except Err Nat
  | [] => .error .valueError
  | a :: as => .ok (as.foldl (fun m b => max m b.rank) a.rank)

/-- An operand of a merge: a geometry with `properties`, a collection with a table, or anything else. -/
inductive Item (S M F V : Type) where
  | one (s : S) (props : List (F × Option V))
  | many (m : M) (data : Table F V)
  | other

/-- The dictionaries and tables collected by the loops (geometry.py 1333-1341, 1622-1629, 1751-1761). -/
def mappings {S M : Type} : List (Item S M F V) → List (Table.Part F V)
  | [] => []
  | .one _ p :: r => .record p :: mappings r
  | .many _ t :: r => .table t :: mappings r
  | .other :: r => mappings r

/-- The arrays collected by `Multiline.merge` (geometry.py 1622-1629). -/
def lineArrays : List (Item Arr (List Arr) F V) → List Arr
  | [] => []
  | .one a _ :: r => a :: lineArrays r
  | .many as _ :: r => as ++ lineArrays r
  | .other :: r => lineArrays r

/-- `Multiline.merge` (geometry.py 1604-1638): vertices and attributes of the result.  `keys` is the set of common field names in its
iteration order. -/
def mergeLines (items : List (Item Arr (List Arr) F V)) (keys : List F) : Except Err (List Arr × Table F V) :=
  if items.length = 0 then .error .valueError else
  let vs := lineArrays items
  match minRank vs with
  | .error e => .error e
  | .ok lo =>
    match maxRank vs with
    | .error e => .error e
    | .ok hi =>
      let vs' := if lo ≠ hi then vs.map (Arr.cut lo) else vs
      match Table.merge (mappings items) keys with
      | .error e => .error e
      | .ok t => .ok (vs', t)

/-- The arrays collected by `Multipoint.merge` (geometry.py 1333-1341): a point gives one row. -/
def pointArrays : List (Item (List ℚ) Arr F V) → List Arr
  | [] => []
  | .one p _ :: r => ⟨p.length, [p]⟩ :: pointArrays r
  | .many a _ :: r => a :: pointArrays r
  | .other :: r => pointArrays r

/-- `Multipoint.merge` (geometry.py 1313-1350); `np.vstack` appends the rows. -/
def mergePoints (items : List (Item (List ℚ) Arr F V)) (keys : List F) : Except Err (List (List ℚ) × Table F V) :=
  if items.length = 0 then .error .valueError else
  let vs := pointArrays items
  match minRank vs with
  | .error e => .error e
  | .ok lo =>
    match maxRank vs with
    | .error e => .error e
    | .ok hi =>
      let vs' := if lo ≠ hi then vs.map (Arr.cut lo) else vs
      match Table.merge (mappings items) keys with
      | .error e => .error e
      | .ok t => .ok (vs'.flatMap Arr.rows, t)

/-- An element of `Multipolygon._vertices[i]`: a `CoordString`, or, for the holes of a collection built from `Polygon`s, a `Polygon` object
(geometry.py 1683-1698). -/
inductive RingObj where
  | coords (a : Arr)
  | polygon (a : Arr)

/-- A `Polygon`: its ring and the rings of its sub-polygons. -/
structure Poly where
  ring : Arr
  subs : List Arr

/-- `Multipolygon(polygons)` (geometry.py 1683-1690). -/
def ofPolygons (ps : List Poly) : List (List RingObj) := ps.map fun p => .coords p.ring :: p.subs.map .polygon

/-- `Multipolygon(rings)` (geometry.py 1694-1698). -/
def ofRings (ps : List (List Arr)) : List (List RingObj) := ps.map fun p => p.map .coords

/-- `[v.asarray() for v in poly_vertices]` (geometry.py 1796): a `Polygon` has no such method. -/
def ringArrays : List RingObj → Except Err (List Arr)
  | [] => .ok []
  | .polygon _ :: _ => .error .attributeError
  | .coords a :: r =>
    match ringArrays r with
    | .error e => .error e
    | .ok as => .ok (a :: as)

/-- `Multipolygon.vertices` (geometry.py 1793-1797). -/
def multipolygonVertices : List (List RingObj) → Except Err (List (List Arr))
  | [] => .ok []
  | p :: ps =>
    match ringArrays p with
    | .error e => .error e
    | .ok as =>
      match multipolygonVertices ps with
      | .error e => .error e
      | .ok r => .ok (as :: r)

/-- The loop of `Multipolygon.merge` (geometry.py 1751-1761). -/
def polygonArrays : List (Item Poly (List (List RingObj)) F V) → Except Err (List (List Arr))
  | [] => .ok []
  | .one p _ :: r =>
    match polygonArrays r with
    | .error e => .error e
    | .ok vs => .ok ((p.ring :: p.subs) :: vs)
  | .many m _ :: r =>
    match multipolygonVertices m with
    | .error e => .error e
    | .ok ms =>
      match polygonArrays r with
      | .error e => .error e
      | .ok vs => .ok (ms ++ vs)
  | .other :: r => polygonArrays r

/-- `Multipolygon.merge` (geometry.py 1733-1770); the branch for different ranks uses the undefined name `imin`. -/
def mergePolygons (items : List (Item Poly (List (List RingObj)) F V)) (keys : List F) : Except Err (List (List Arr) × Table F V) :=
  if items.length = 0 then .error .valueError else
  match polygonArrays items with
  | .error e => .error e
  | .ok vs =>
    match minRank vs.flatten with
    | .error e => .error e
    | .ok lo =>
      match maxRank vs.flatten with
      | .error e => .error e
      | .ok hi =>
        if lo ≠ hi then .error .nameError else
        match Table.merge (mappings items) keys with
        | .error e => .error e
        | .ok t => .ok (vs, t)

end Karta.Join
