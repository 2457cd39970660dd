import Verif.Vec.Exchange
import Verif.Vec.Shape
import Verif.Geod.Ellps

/-!
# Shapefiles, written and read back

Model of `ogr_write`, `ogr_write_feature`, the `ogr_as…` functions, `ogr_read_geometry`, `ogr_read_geometries` and `ogr_read_attributes`
(karta/vector/_shp.py 91-345) and of `ogr_read_shapefile` and `ogr_parse_srs` (karta/vector/read.py 167-206).  OGR itself is outside the
repository: what it keeps of a geometry, a field and a coordinate system are parameters.  Bounding boxes are left out.
-/

namespace Karta.ShpFile
open Karta Karta.Exch

/-! ### Geometries -/

/-- The coordinate dimensions of an OGR geometry. -/
inductive Dim where
  | flat | d25 | m | zm
  deriving DecidableEq

/-- An `ogr.Geometry`. -/
inductive OGeom where
  | point (d : Dim) (v : Coord)
  | line (d : Dim) (vs : List Coord)
  | polygon (d : Dim) (rings : List (List Coord))
  | multiPoint (d : Dim) (vs : List Coord)
  | multiLine (d : Dim) (vs : List (List Coord))
  | multiPolygon (d : Dim) (ps : List (List (List Coord)))
  | other

/-- The types of `OGRTYPES` (_shp.py 24-29). -/
inductive Kind where
  | point | line | polygon | multiPoint | multiLine | multiPolygon
  deriving DecidableEq

/-- A loop over a list that may raise. -/
def each {X Y : Type _} (f : X → Except Err Y) : List X → Except Err (List Y)
  | [] => .ok []
  | x :: xs =>
    match f x with
    | .error e => .error e
    | .ok y =>
      match each f xs with
      | .error e => .error e
      | .ok ys => .ok (y :: ys)

/-- `AddPoint(pt[0], pt[1])`: the third coordinate is `0`. -/
def xy : Coord → Except Err Coord
  | x :: y :: _ => .ok [x, y, 0]
  | _ => .error .indexError

/-- `CloseRings` for one ring. -/
def closeRing (r : List Coord) : List Coord := if r.head? = r.getLast? then r else r ++ r.head?.toList

/-- `ogr_asPoint`, …, `ogr_asMultiPolygon` (_shp.py 297-345).  The last makes a multilinestring (`ogr.Geometry(5)`), to which OGR adds no
polygons. -/
def asOgr : GJ → Except Err OGeom
  | .point v => (xy v).map (.point .d25)
  | .lineString vs => (each xy vs).map (.line .d25)
  | .polygon rings => (each (each xy) rings).map fun rs => .polygon .d25 (rs.map closeRing)
  | .multiPoint vs => (each xy vs).map (.multiPoint .d25)
  | .multiLineString vs => (each (each xy) vs).map (.multiLine .d25)
  | .multiPolygon ps => (each (each (each xy)) ps).map fun _ => .multiLine .flat []

/-- `ogr_get_polygon_points` (_shp.py 101-105). -/
def polygonPoints (rings : List (List Coord)) : List (List Coord) := rings.map List.dropLast

/-- `ogr_read_geometry` (_shp.py 107-146).  `point` is `GetPoint`, which may add a third coordinate. -/
def readGeometry (point : Coord → Coord) : OGeom → Except Err GJ
  | .point _ v => .ok (.point (point v))
  | .line _ vs => .ok (.lineString vs)
  | .polygon _ rings => .ok (.polygon (polygonPoints rings))
  | .multiPoint _ vs => .ok (.multiPoint vs)
  | .multiLine _ vs => .ok (.multiLineString vs)
  | .multiPolygon _ ps => .ok (.multiPolygon (ps.map polygonPoints))
  | .other => .error .typeError

/-- `get_geometry_type` (_shp.py 91-99) of a feature. -/
def kind : GJ → Kind
  | .point _ => .point
  | .lineString _ => .line
  | .polygon _ => .polygon
  | .multiPoint _ => .multiPoint
  | .multiLineString _ => .multiLine
  | .multiPolygon _ => .multiPolygon

/-- OGR's shapefile driver: which geometries a layer of a type accepts, what it keeps of them (`none`: a null geometry), and `GetPoint`. -/
structure Driver where
  accepts : Kind → OGeom → Bool
  keep : OGeom → Option OGeom
  point : Coord → Coord

/-- The loop of `ogr_write` over the objects (_shp.py 246-248, 276-295): what OGR refuses is not written. -/
def writeAll {R : Type _} (dr : Driver) (k : Kind) : List (GJ × R) → Except Err (List (Option OGeom × R))
  | [] => .ok []
  | (gj, r) :: rest =>
    match asOgr gj with
    | .error e => .error e
    | .ok g =>
      match writeAll dr k rest with
      | .error e => .error e
      | .ok l => .ok (if dr.accepts k g then (dr.keep g, r) :: l else l)

/-- `ogr_write` (_shp.py 181-249), the geometries: `objs[0]` gives the type of the layer. -/
def writeLayer {R : Type _} (dr : Driver) : List (GJ × R) → Except Err (List (Option OGeom × R))
  | [] => .error .indexError
  | (gj, r) :: rest => writeAll dr (kind gj) ((gj, r) :: rest)

variable {F A C : Type}

/-- `ogr_read_shapefile` (read.py 167-191) after the coordinate system is known: geometries paired with attributes, null geometries left out. -/
def readLayer {R : Type _} (dr : Driver) (drop : Bool) (crs : C) (attr : R → List (F × Val A)) :
    List (Option OGeom × R) → Except Err (List (Geom F A C))
  | [] => .ok []
  | (none, _) :: rest => readLayer dr drop crs attr rest
  | (some g, r) :: rest =>
    match readGeometry dr.point g with
    | .error e => .error e
    | .ok gj =>
      match fromShape drop crs gj (attr r) with
      | .error e => .error e
      | .ok x =>
        match readLayer dr drop crs attr rest with
        | .error e => .error e
        | .ok xs => .ok (x :: xs)

/-- `write_shapefile(fnm, *geometries)` (_shp.py 358-359) and `read_shapefile(fnm)`; `R` are the rows of attributes as OGR keeps them. -/
def trip {R : Type _} (dr : Driver) (drop : Bool) (crs : C) (attr : R → List (F × Val A)) (gs : List (Exch.Shape × R)) : Except Err (List (Geom F A C)) :=
  match each (fun g : Exch.Shape × R => (geomdict g.1).map fun gj => (gj, g.2)) gs with
  | .error e => .error e
  | .ok objs =>
    match writeLayer dr objs with
    | .error e => .error e
    | .ok l => readLayer dr drop crs attr l

/-! ### Attributes -/

/-- Values of attributes. -/
inductive Value where
  | int (n : Int)
  | real (x : ℚ)
  | text (s : List Char)
  | bytes (s : List Char)
  | date (s : List Char)
  | time (s : List Char)
  | datetime (s : List Char)
  | none
  deriving DecidableEq

/-- The OGR types of fields that `ogr_get_fieldtype` chooses for single values. -/
inductive FType where
  | integer | real | string | binary | date | time | datetime
  deriving DecidableEq

/-- `ogr_get_fieldtype` (_shp.py 53-74, 87-90) for single values. -/
def fieldType : Value → Except Err FType
  | .int _ => .ok .integer
  | .real _ => .ok .real
  | .text _ => .ok .string
  | .bytes _ => .ok .binary
  | .datetime _ => .ok .datetime
  | .date _ => .ok .date
  | .time _ => .ok .time
  | .none => .error .typeError

/-- `t(value)` with `TypeError` caught (_shp.py 172-175); `FIELDTYPES` (_shp.py 32-43).  OGR returns dates and times as text, and numbers
and text as such.  `trunc` is `int` of a float, `show` is `str`; `float` and `int` of text raise `ValueError` unless they can be read. -/
def readField (trunc : ℚ → Int) (show' : Value → List Char) (readInt : List Char → Except Err Int) (readReal : List Char → Except Err ℚ) :
    FType → Value → Except Err Value
  | .integer, .int n => .ok (.int n)
  | .integer, .real x => .ok (.int (trunc x))
  | .integer, .text s => (readInt s).map .int
  | .integer, _ => .ok .none
  | .real, .int n => .ok (.real n)
  | .real, .real x => .ok (.real x)
  | .real, .text s => (readReal s).map .real
  | .real, _ => .ok .none
  | .string, .text s => .ok (.text s)
  | .string, v => .ok (.text (show' v))
  | .binary, .int n => .ok (.text (show' (.int n)))
  | .binary, _ => .ok .none
  | .date, _ => .ok .none
  | .time, _ => .ok .none
  | .datetime, _ => .ok .none

/-- OGR's table of attributes: the field types the driver supports, the type a field has when the file is read, and what `GetField` returns
after `SetField`. -/
structure Dbf where
  supports : FType → Bool
  reopened : FType → FType
  field : FType → Value → Value

/-- One feature: `ogr_write_feature` (_shp.py 264-276) for the fields that were created, then `ogr_read_attributes` (_shp.py 158-179) for it. -/
def attributes (db : Dbf) (trunc : ℚ → Int) (show' : Value → List Char) (readInt : List Char → Except Err Int)
    (readReal : List Char → Except Err ℚ) (cols : List (Shape.Column FType)) (i : Nat) (p : Shape.Props Value) :
    Except Err (List (Shape.Name × Value)) :=
  match Shape.row (cols.filter fun c => db.supports c.typ) i p with
  | .error e => .error e
  | .ok (_, vs) =>
    match each (fun cv : Shape.Column FType × (Shape.Name × Value) =>
        (readField trunc show' readInt readReal (db.reopened cv.1.typ) (db.field cv.1.typ cv.2.2)).map fun v => (cv.2.1, v))
        ((cols.filter fun c => db.supports c.typ).zip vs) with
    | .error e => .error e
    | .ok l => .ok (("id".toList, .int i) :: l)

/-! ### Coordinate systems -/

/-- `s.replace(old, new)` for a text `old` that is not empty. -/
def replace (old new : List Char) : Nat → List Char → List Char
  | 0, s => s
  | _ + 1, [] => []
  | n + 1, c :: s => if old.isPrefixOf (c :: s) then new ++ replace old new n ((c :: s).drop old.length) else c :: replace old new n s

/-- The PROJ string handed to OSR (_shp.py 195-200). -/
def layerProj4 (s : List Char) : List Char :=
  let s1 := replace "lonlat".toList "longlat".toList s.length s
  let s2 := replace "latlon".toList "latlong".toList s1.length s1
  if s2.length = 0 then "+proj=longlat +datum=WGS84".toList else s2

/-- An `osr.SpatialReference` read from a file. -/
inductive Srs where
  | geographic (a invf : ℚ)
  | projected (proj4 : List Char) (name : List Char)

/-- A coordinate system of karta. -/
inductive Crs where
  | wgs84
  | geographical (g : Ellps.Geographical)
  | projected (proj4 : List Char) (name : List Char)

/-- `ogr_parse_srs` (read.py 193-206); `str` prints a number. -/
def parseSrs (float : List Char → Except Err ℚ) (str : ℚ → List Char) (noName : List Char) : Option Srs → Except Err Crs
  | none => .ok .wgs84
  | some (.geographic a invf) =>
    if invf = 0 then .error .zeroDivision
    else (Ellps.geographical float ["+a=".toList ++ str a, "+f=".toList ++ str (1 / invf)] noName).map .geographical
  | some (.projected p n) => .ok (.projected p n)

end Karta.ShpFile
