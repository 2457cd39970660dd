import Verif.Py

/-!
# Text descriptions of coordinate systems

Model of `CRS.get_proj4`, `CRS.get_wkt` (karta/crs.py 127-158), of the `ref_proj4` and `ref_wkt` attributes set by the constructors (crs.py
164-167, 213-222, 266-279) and of `srs_from_crs` (karta/raster/_gdal.py 190-195).

Outside the repository: `osgeo.osr.SpatialReference` (`Osr`).  Without `osr.UseExceptions` a failed import leaves an empty reference, whose
exports are empty strings.  Strings are lists of characters.
-/

namespace Karta.CrsText
open Karta

abbrev Str := List Char

/-- `s.replace(pat, new)` from the left without overlaps; `skip` counts the characters of a match still to be passed over. -/
def replaceGo (pat new : Str) : Nat → Str → Str
  | _, [] => []
  | k + 1, _ :: cs => replaceGo pat new k cs
  | 0, c :: cs => if pat.isPrefixOf (c :: cs) then new ++ replaceGo pat new (pat.length - 1) cs else c :: replaceGo pat new 0 cs

/-- `s.replace(pat, new)` of Python, for a pattern that is not empty. -/
def replace (pat new s : Str) : Str := replaceGo pat new 0 s

def latlon : Str := ['l', 'a', 't', 'l', 'o', 'n']
def lonlat : Str := ['l', 'o', 'n', 'l', 'a', 't']
def latlong : Str := ['l', 'a', 't', 'l', 'o', 'n', 'g']
def longlat : Str := ['l', 'o', 'n', 'g', 'l', 'a', 't']

/-- `self.ref_proj4.replace("latlon", "latlong").replace("lonlat", "longlat")` (crs.py 149-150). -/
def forOsr (s : Str) : Str := replace lonlat longlat (replace latlon latlong s)

/-- `crs.get_proj4().replace("lonlat", "latlong")` (_gdal.py 193). -/
def forGdal (s : Str) : Str := replace lonlat latlong s

/-- The attributes of a coordinate system. -/
structure Refs where
  proj4 : Option Str
  wkt : Option Str

/-- `osr.SpatialReference`: imports that may fail, and exports. -/
structure Osr (S : Type) where
  fromProj4 : Str → Option S
  fromWkt : Str → Option S
  toProj4 : S → Str
  toWkt : S → Str

variable {S : Type}

/-- The text exported from a reference; an empty one gives an empty text. -/
def export' (f : S → Str) : Option S → Str
  | none => []
  | some s => f s

/-- `get_proj4` (crs.py 127-136). -/
def getProj4 (o : Osr S) (c : Refs) : Except Err Str :=
  match c.proj4 with
  | some p => .ok p
  | none =>
    match c.wkt with
    | some w => .ok (export' o.toProj4 (o.fromWkt w))
    | none => .error .attributeError

/-- `get_wkt` (crs.py 142-154). -/
def getWkt (o : Osr S) (c : Refs) : Except Err Str :=
  match c.wkt with
  | some w => .ok w
  | none =>
    match c.proj4 with
    | some p => .ok (export' o.toWkt (o.fromProj4 (forOsr p)))
    | none => .error .attributeError

/-- `srs_from_crs` (_gdal.py 190-195): the reference written to a raster file. -/
def srsFromCrs (o : Osr S) (c : Refs) : Except Err (Option S) :=
  match getProj4 o c with
  | .error e => .error e
  | .ok p => .ok (o.fromProj4 (forGdal p))

/-- `CartesianCRS()` (crs.py 164-167). -/
def cartesian : Refs := ⟨some [], some []⟩

/-- `str.strip()` on blanks. -/
def strip (s : Str) : Str := ((s.dropWhile (· == ' ')).reverse.dropWhile (· == ' ')).reverse

/-- `GeographicalCRS(spheroid, name, datum)` (crs.py 213-222). -/
def geographical (spheroid datum : Str) : Refs :=
  ⟨some (strip (['+', 'p', 'r', 'o', 'j', '='] ++ lonlat ++ [' '] ++ spheroid ++ [' '] ++ datum)), none⟩

/-- `ProjectedCRS(proj)` (crs.py 266-279). -/
def projected (proj : Str) : Refs := ⟨some proj, none⟩

end Karta.CrsText
