import Verif.Table.Model
import Verif.Vec.Basic

/-!
# Exchanging geometries: GeoJSON and the geo interface

Model of `GeoJSONOutMixin._as_named_tuple` and `as_geojson` (karta/vector/_geojson.py 5-105), `read_geojson` for one feature
(karta/vector/read.py 52-134), the `geomdict` and `__geo_interface__` properties of the geometry classes (karta/vector/geometry.py 111-121,
846-858, 1013-1036, 1299-1311, 1591-1602, 1720-1731, 1772-1783) and `from_shape` (read.py 18-48).

Outside the repository: `CoordString` from the coordstring package, which may or may not drop a repeated closing vertex of a ring (`drop`),
and picogeojson, which writes and reads back a feature and may reverse the rings of polygons (`wind`).  Coordinates are converted between
systems by `move`.  Simplifications: properties are never `None`; holes have no holes of their own.
-/

namespace Karta.Exch
open Karta Karta.Tab

/-- The coordinates of one vertex. -/
abbrev Coord := List ℚ

/-- A value in a properties dictionary: one without a length, a string with its characters, or a list. -/
inductive Val (A : Type) where
  | scalar (a : Option A)
  | text (a : A) (chars : List (Option A))
  | list (vs : List (Option A))

/-- `len(v)`; `none` if it raises `TypeError`. -/
def Val.len? {A : Type} : Val A → Option Nat
  | .scalar _ => none
  | .text _ cs => some cs.length
  | .list vs => some vs.length

/-- A member of `Polygon.subs`: a `Polygon`, or a plain list of vertices, as `read_geojson` leaves it there (read.py 91-93). -/
inductive Sub where
  | polygon (ring : List Coord)
  | raw (ring : List Coord)

/-- A geometry object without its attributes. -/
inductive Shape where
  | point (v : Coord)
  | line (vs : List Coord)
  | polygon (ring : List Coord) (subs : List Sub)
  | multipoint (vs : List Coord)
  | multiline (vs : List (List Coord))
  | multipolygon (vs : List (List (List Coord)))

/-- A geometry object; `data` is meaningful for the multipart kinds only. -/
structure Geom (F A C : Type) where
  shape : Shape
  props : List (F × Val A)
  data : Table F A
  crs : C

/-- `hasattr(geom, "data")` (_geojson.py 65). -/
def Shape.multi : Shape → Bool
  | .multipoint _ | .multiline _ | .multipolygon _ => true
  | _ => false

/-- `len(inputs)` of the multipart constructors, `len(coordinates)`. -/
def Shape.parts : Shape → Nat
  | .multipoint vs => vs.length
  | .multiline vs => vs.length
  | .multipolygon vs => vs.length
  | _ => 0

/-- A GeoJSON geometry object. -/
inductive GJ where
  | point (v : Coord)
  | lineString (vs : List Coord)
  | polygon (rings : List (List Coord))
  | multiPoint (vs : List Coord)
  | multiLineString (vs : List (List Coord))
  | multiPolygon (vs : List (List (List Coord)))

/-- A GeoJSON feature: geometry, properties and the name of the coordinate system. -/
structure Feature (F A U : Type) where
  geometry : GJ
  props : List (F × Val A)
  urn : U

variable {F A C U : Type} [DecidableEq F] [DecidableEq C]

/-- `vertices_ring` (geometry.py 1021-1027, 1772-1783): `vertices[0]` raises `IndexError` if there is none. -/
def closed : List Coord → Except Err (List Coord)
  | [] => .error .indexError
  | v :: vs => .ok (v :: vs ++ [v])

/-- `vertices_ring` of every ring. -/
def closedAll : List (List Coord) → Except Err (List (List Coord))
  | [] => .ok []
  | r :: rs =>
    match closed r with
    | .error e => .error e
    | .ok r' =>
      match closedAll rs with
      | .error e => .error e
      | .ok rs' => .ok (r' :: rs')

/-- `Multipolygon.vertices_ring` (geometry.py 1772-1783). -/
def closedPolys : List (List (List Coord)) → Except Err (List (List (List Coord)))
  | [] => .ok []
  | p :: ps =>
    match closedAll p with
    | .error e => .error e
    | .ok p' =>
      match closedPolys ps with
      | .error e => .error e
      | .ok ps' => .ok (p' :: ps')

/-- `_as_nested_lists` (utilities.py 13-22) of a list of parts: `part[0]` of a part without items raises `IndexError` (`Karta.Nest` models the
function for values of any depth). -/
def nested {α : Type} (parts : List (List α)) : Except Err (List (List α)) :=
  if parts.any List.isEmpty then .error .indexError else .ok parts

/-- `sub.vertices()` for the members of `subs` (_geojson.py 53-54): a list has no such method. -/
def subVertices : List Sub → Except Err (List (List Coord))
  | [] => .ok []
  | .raw _ :: _ => .error .attributeError
  | .polygon r :: rest =>
    match subVertices rest with
    | .error e => .error e
    | .ok rs => .ok (r :: rs)

/-- `sub.vertices_ring` for the members of `subs` (geometry.py 1032-1033). -/
def subRings : List Sub → Except Err (List (List Coord))
  | [] => .ok []
  | .raw _ :: _ => .error .attributeError
  | .polygon r :: rest =>
    match closed r with
    | .error e => .error e
    | .ok r' =>
      match subRings rest with
      | .error e => .error e
      | .ok rs => .ok (r' :: rs)

/-- The geometry part of `_as_named_tuple` (_geojson.py 46-63). -/
def toGJ : Shape → Except Err GJ
  | .point v => .ok (.point v)
  | .line vs => .ok (.lineString vs)
  | .polygon ring subs =>
    match closed ring with
    | .error e => .error e
    | .ok r =>
      match subVertices subs with
      | .error e => .error e
      | .ok rs => .ok (.polygon (r :: rs))
  | .multipoint vs => .ok (.multiPoint vs)
  | .multiline vs =>
    match nested vs with
    | .error e => .error e
    | .ok vs' => .ok (.multiLineString vs')
  | .multipolygon vs =>
    match closedPolys vs with
    | .error e => .error e
    | .ok vs' =>
      match nested vs' with
      | .error e => .error e
      | .ok vs'' => .ok (.multiPolygon vs'')

/-- `for field in geom.data.fields: data[field] = geom.d[field]` (_geojson.py 66-67); `ord` is the iteration order of the set. -/
def dataDict (t : Table F A) : List F → Except Err (List (F × Val A))
  | [] => .ok []
  | f :: fs =>
    match t.getfield f with
    | .error e => .error e
    | .ok c =>
      match dataDict t fs with
      | .error e => .error e
      | .ok r => .ok ((f, .list c) :: r)

/-- `_as_named_tuple` (_geojson.py 23-71): the feature, and the properties dictionary of the geometry after the call, which is updated in place
(69-70).  Without a URN the undefined name `geoms` is used (44). -/
def asNamedTuple (g : Geom F A C) (urn : Option U) (ord : List F) : Except Err (Feature F A U × List (F × Val A)) :=
  match urn with
  | none => .error .nameError
  | some u =>
    match toGJ g.shape with
    | .error e => .error e
    | .ok gj =>
      match (if g.shape.multi then dataDict g.data ord else .ok []) with
      | .error e => .error e
      | .ok d => .ok (⟨gj, dictUpdate g.props d, u⟩, dictUpdate g.props d)

/-- `type(self)(vertices, **kw)` (_geojson.py 91-98): the geometry with converted vertices; sub-polygons are not passed on. -/
def moved (move : Coord → Coord) : Shape → Shape
  | .point v => .point (move v)
  | .line vs => .line (vs.map move)
  | .polygon ring _ => .polygon (ring.map move) []
  | .multipoint vs => .multipoint (vs.map move)
  | .multiline vs => .multiline (vs.map fun l => l.map move)
  | .multipolygon vs => .multipolygon (vs.map fun p => p.map fun r => r.map move)

/-- `as_geojson` (_geojson.py 73-105): the feature that is serialised and the geometry after the call.  `wgs84` is `LonLatWGS84` and `crs84` the
default URN.  The converted geometry shares its properties dictionary with the original (91). -/
def asGeojson (wgs84 : C) (crs84 : U) (move : Coord → Coord) (g : Geom F A C) (urn : Option U) (force : Bool) (ord : List F) :
    Except Err (Feature F A U × Geom F A C) :=
  let urn := if force && urn.isNone then some crs84 else urn
  let geo := if force && g.crs ≠ wgs84 then { g with shape := moved move g.shape, crs := wgs84 } else g
  match asNamedTuple geo urn ord with
  | .error e => .error e
  | .ok (f, p) => .ok (f, { g with props := p })

/-- picogeojson writes the feature and reads it back; rings of polygons pass through `wind`. -/
def wire (wind : List Coord → List Coord) (f : Feature F A U) : Feature F A U :=
  { f with geometry := match f.geometry with
      | .polygon rings => .polygon (rings.map wind)
      | .multiPolygon ps => .multiPolygon (ps.map fun p => p.map wind)
      | g => g }

/-- `CoordString(vertices, ring=True)` (geometry.py 349, 992): a repeated closing vertex is dropped, or kept. -/
def ringString (drop : Bool) (vs : List Coord) : List Coord :=
  if drop && (decide (2 ≤ vs.length) && decide (vs.head? = vs.getLast?)) then vs.dropLast else vs

/-- The division of the properties in `convert_feature` (read.py 108-117): `(data, properties)`. -/
def divide (n : Nat) : List (F × Val A) → List (F × Val A) × List (F × Val A)
  | [] => ([], [])
  | (k, v) :: rest =>
    let (d, p) := divide n rest
    match v.len? with
    | some m => if m = n then ((k, v) :: d, p) else (d, (k, v) :: p)
    | none => (d, (k, v) :: p)

/-- A property handed on as a column of data. -/
def toCol : Val A → Col A
  | .scalar a => .seq [a]
  | .text a cs => .str (some a) cs
  | .list vs => .seq vs

/-- `convert_feature` and `convert_geometry` for a multipart geometry with `n` parts (read.py 105-117, 94-99; geometry.py 1184-1197). -/
def readMulti (s : Shape) (props : List (F × Val A)) (crs : C) : Except Err (Geom F A C) :=
  let dp := divide s.parts props
  match multipartTable s.parts (.dict (dp.1.map fun kv => (kv.1, toCol kv.2))) with
  | .error e => .error e
  | .ok t => .ok ⟨s, dp.2, t, crs⟩

/-- `read_geojson` for a feature (read.py 52-134): the one geometry of the list it returns. -/
def readFeature (drop : Bool) (f : Feature F A U) (crs : C) : Except Err (Geom F A C) :=
  match f.geometry with
  | .point v => if v.length = 2 ∨ v.length = 3 then .ok ⟨.point v, f.props, ⟨[], []⟩, crs⟩ else .error .typeError
  | .lineString vs => .ok ⟨.line vs, f.props, ⟨[], []⟩, crs⟩
  | .polygon [] => .error .indexError
  | .polygon (r :: rs) => .ok ⟨.polygon (ringString drop r) (rs.map .raw), f.props, ⟨[], []⟩, crs⟩
  | .multiPoint vs => readMulti (.multipoint vs) f.props crs
  | .multiLineString vs => readMulti (.multiline vs) f.props crs
  | .multiPolygon vs => readMulti (.multipolygon vs) f.props crs

/-- `geom.as_geojson(...)` followed by `read_geojson(..., crs)`. -/
def geojsonTrip (wgs84 : C) (crs84 : U) (move : Coord → Coord) (wind : List Coord → List Coord) (drop : Bool) (g : Geom F A C) (urn : Option U)
    (force : Bool) (ord : List F) (crs : C) : Except Err (Geom F A C) :=
  match asGeojson wgs84 crs84 move g urn force ord with
  | .error e => .error e
  | .ok (f, _) => readFeature drop (wire wind f) crs

/-- The attributes of a part, `geom[i].properties` (geometry.py 1272-1275, 1581-1584, 1706-1708): the row updated with the properties of the
collection. -/
def partProps (g : Geom F A C) (i : Int) : Except Err (List (F × Val A)) :=
  match g.data.get i with
  | .error e => .error e
  | .ok p => .ok (dictUpdate (p.map fun kv => (kv.1, Val.scalar kv.2)) g.props)

/-- `any(p.contains(point) for p in self.subs)` (geometry.py 1174) with `inRing` for the test of a ring; a list has no method `contains`. -/
def anySub (inRing : List Coord → Bool) : List Sub → Except Err Bool
  | [] => .ok false
  | .raw _ :: _ => .error .attributeError
  | .polygon r :: rest => if inRing r then .ok true else anySub inRing rest

/-- `Polygon.contains` (geometry.py 1172-1174). -/
def polygonContains (inRing : List Coord → Bool) (ring : List Coord) (subs : List Sub) : Except Err Bool :=
  if inRing ring then
    match anySub inRing subs with
    | .error e => .error e
    | .ok b => .ok (!b)
  else .ok false

/-- `geomdict` (geometry.py 119-121, 854-858, 1029-1036, 1299-1303, 1591-1595, 1720-1724), coordinates only: the bounding box, which is
not read back, is left out. -/
def geomdict : Shape → Except Err GJ
  | .point v => .ok (.point v)
  | .line vs => .ok (.lineString vs)
  | .polygon ring subs =>
    match closed ring with
    | .error e => .error e
    | .ok r =>
      match subRings subs with
      | .error e => .error e
      | .ok rs => .ok (.polygon (r :: rs))
  | .multipoint vs => .ok (.multiPoint vs)
  | .multiline vs =>
    match nested vs with
    | .error e => .error e
    | .ok vs' => .ok (.multiLineString vs')
  | .multipolygon vs =>
    match closedPolys vs with
    | .error e => .error e
    | .ok vs' =>
      match nested vs' with
      | .error e => .error e
      | .ok vs'' => .ok (.multiPolygon vs'')

/-- `__geo_interface__` (geometry.py 111-117, 846-852, 1013-1019, 1305-1311, 1597-1602, 1726-1731): multilines and multipolygons give the
coordinate system only.  `proj4` is `crs.get_proj4()`, `key` is `"_karta_proj4"`. -/
def geoInterface (key : F) (proj4 : C → Val A) (g : Geom F A C) : Except Err (GJ × List (F × Val A)) :=
  match geomdict g.shape with
  | .error e => .error e
  | .ok gj =>
    match g.shape with
    | .multiline _ | .multipolygon _ => .ok (gj, [(key, proj4 g.crs)])
    | _ => .ok (gj, dictUpdate g.props [(key, proj4 g.crs)])

/-- `_from_shape` for a feature (read.py 23-48). -/
def fromShape (drop : Bool) (cartesian : C) (gj : GJ) (props : List (F × Val A)) : Except Err (Geom F A C) :=
  match gj with
  | .point v => if v.length = 2 ∨ v.length = 3 then .ok ⟨.point v, props, ⟨[], []⟩, cartesian⟩ else .error .typeError
  | .lineString vs => .ok ⟨.line vs, props, ⟨[], []⟩, cartesian⟩
  | .polygon [] => .error .indexError
  | .polygon (r :: rs) => .ok ⟨.polygon (ringString drop r) (rs.map fun r => .polygon (ringString drop r)), props, ⟨[], []⟩, cartesian⟩
  | .multiPoint vs => .ok ⟨.multipoint vs, props, .ofSize [] vs.length, cartesian⟩
  | .multiLineString vs => .ok ⟨.multiline vs, props, .ofSize [] vs.length, cartesian⟩
  | .multiPolygon vs => .ok ⟨.multipolygon vs, props, .ofSize [] vs.length, cartesian⟩

/-- `from_shape(geom)` (read.py 18-21) on a geometry of karta itself. -/
def interfaceTrip (drop : Bool) (cartesian : C) (key : F) (proj4 : C → Val A) (g : Geom F A C) : Except Err (Geom F A C) :=
  match geoInterface key proj4 g with
  | .error e => .error e
  | .ok (gj, p) => fromShape drop cartesian gj p

end Karta.Exch
