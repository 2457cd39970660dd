import Verif.Grid.Window

/-!
Model of the raster codecs: ESRI ASCII grids (karta/raster/_aai.py, `read_aai` of
karta/raster/read.py, `RegularGrid.to_aai` of karta/raster/grid.py 1084-1139) and GeoTIFF
(karta/raster/_gdal.py, `read_geotiff` and `from_geotiffs` of karta/raster/read.py).

Simplifications: a text file is a list of lines of whitespace-separated tokens; printing a number and
parsing it back is the identity; GDAL stores what it is given.  A pixel of an ASCII grid is `Option ℚ`,
where `none` is NaN.
-/

namespace Karta.Grid
open Karta Karta.Band Karta.Py

/-! ### ASCII grids -/

/-- The header keywords recognised, whatever their case (_aai.py 14-16). -/
inductive HKey where
  | ncols | nrows | xllcenter | yllcenter | xllcorner | yllcorner | cellsize | nodata
  deriving DecidableEq, Repr

/-- A token of the file: a keyword, a number, or any other word. -/
inductive Tok where
  | key (k : HKey)
  | num (v : Option ℚ)
  | junk
  deriving DecidableEq, Repr

/-- `float(token)` (_aai.py 29, 50). -/
def Tok.float : Tok → Except Err (Option ℚ)
  | .num v => .ok v
  | _ => .error .valueError

/-- Number of header lines (_aai.py 11-20).  A blank line, or the end of the file, makes
`l.split(None, 1)[0]` raise `IndexError`. -/
def countHeader : List (List Tok) → Except Err Nat
  | [] => .error .indexError
  | [] :: _ => .error .indexError
  | (.key _ :: _) :: ls =>
    match countHeader ls with
    | .error e => .error e
    | .ok n => .ok (n + 1)
  | _ => .ok 0

/-- One header record, `(rec[0].lower(), float(rec[1]))` with `rec = line.split(None, 1)` (_aai.py 28-29). -/
def headerEntry : List Tok → Except Err (HKey × Option ℚ)
  | [.key k, t] =>
    match t.float with
    | .error e => .error e
    | .ok v => .ok (k, v)
  | [.key _] => .error .indexError
  | _ => .error .valueError

/-- `hdr.get(k)` of the dictionary made from the records: the last record of a keyword counts. -/
def hdrGet (hdr : List (HKey × Option ℚ)) (k : HKey) : Option (Option ℚ) :=
  (hdr.reverse.find? fun e => decide (e.1 = k)).map Prod.snd

/-- `hdr[k] = int(hdr[k])` for `ncols` and `nrows` (_aai.py 30-31). -/
def intEntry (hdr : List (HKey × Option ℚ)) (k : HKey) : Except Err Unit :=
  match hdrGet hdr k with
  | none => .error .keyError
  | some none => .error .valueError
  | some (some _) => .ok ()

/-- The corner coordinate derived from the centre or corner record of one axis (_aai.py 66-80).  NaN in
one of these records gives a grid with an undefined transform, which the model reports as `other`. -/
def cornerRef (d : ℚ) (center corner : Option (Option ℚ)) : Except Err ℚ :=
  match center with
  | none =>
    match corner with
    | none => .error .valueError
    | some none => .error .other
    | some (some c) => .ok c
  | some none => .error .other
  | some (some c) => .ok (c - d / 2)

/-- `np.array(data_f)` (_aai.py 52): rows of different lengths raise `ValueError`. -/
def gridArray (rows : List (List (Option ℚ))) : Except Err (Arr (Option ℚ)) :=
  match rows with
  | [] => .ok ⟨0, 0, fun _ _ => none⟩
  | r0 :: _ =>
    if rows.all fun r => decide (r.length = r0.length) then
      .ok ⟨rows.length, r0.length, fun y x => (((rows[y]?).bind fun r => r[x]?).getD none)⟩
    else .error .valueError

/-- `check_header` and the transform built by `read_aai` (_aai.py 58-82, read.py 14-19). -/
def aaiTransform (hdr : List (HKey × Option ℚ)) : Except Err Xform :=
  match hdrGet hdr .cellsize with
  | none => .error .valueError
  | some none => .error .other
  | some (some d) =>
    match cornerRef d (hdrGet hdr .yllcenter) (hdrGet hdr .yllcorner) with
    | .error e => .error e
    | .ok y =>
      match cornerRef d (hdrGet hdr .xllcenter) (hdrGet hdr .xllcorner) with
      | .error e => .error e
      | .ok x => .ok ⟨x, y, d, d, 0, 0⟩

/-- Replacing the nodata value by NaN and turning the rows over (_aai.py 53, read.py 20-21). -/
def aaiValues (nodata : Option ℚ) (a : Arr (Option ℚ)) : NdArr (Option (Option ℚ)) :=
  ⟨[a.ny, a.nx], fun
    | [r, c] => some (if a.get (a.ny - 1 - r) c = nodata then none else a.get (a.ny - 1 - r) c)
    | _ => none⟩

/-- `read_aai` (read.py 9-21, _aai.py 5-56). -/
def readAai (file : List (List Tok)) : Except Err (RGrid (Option ℚ)) :=
  match countHeader file with
  | .error e => .error e
  | .ok n =>
    match (file.take n).mapM headerEntry with
    | .error e => .error e
    | .ok hdr =>
      match intEntry hdr .ncols, intEntry hdr .nrows with
      | .error e, _ => .error e
      | _, .error e => .error e
      | .ok _, .ok _ =>
        match aaiTransform hdr with
        | .error e => .error e
        | .ok t =>
          match (file.drop n).mapM (fun l => l.mapM Tok.float) with
          | .error e => .error e
          | .ok rows =>
            match gridArray rows with
            | .error e => .error e
            | .ok a => fromValues (some 0) none t none (aaiValues ((hdrGet hdr .nodata).getD (some (-9999))) a)

/-- Tokens of the text `[v0 v1 ... vn]` that `str(list).replace(',', '')` makes of a list: the brackets
stick to the first and the last number (grid.py 1135-1136). -/
def bracketed : List (Option ℚ) → List Tok
  | [] => [.junk]
  | [_] => [.junk]
  | _ :: v :: vs => .junk :: ((v :: vs).dropLast.map .num) ++ [.junk]

/-- The data lines of `to_aai` (grid.py 1116-1117, 1135-1136): `data_a.tolist()` is a list of rows, each a
list of numbers for a two-dimensional array and a list of lists for a three-dimensional one; the
outermost brackets of each row are cut off. -/
def dataLines (nodata : Option ℚ) (A : NdArr (Option (Option ℚ))) : List (List Tok) :=
  let val := fun (o : Option (Option ℚ)) => if (o.getD none) = none then nodata else o.getD none
  match A.shape with
  | [m, n] => (List.range m).map fun r => (List.range n).map fun c => .num (val (A.get [r, c]))
  | [m, n, p] => (List.range m).map fun r => (List.range n).flatMap fun c =>
      bracketed ((List.range p).map fun k => val (A.get [r, c, k]))
  | _ => []

/-- `to_aai` (grid.py 1084-1139): the text written.  `GridError` is `other`. -/
def RGrid.toAai (g : RGrid (Option ℚ)) (center : Bool) (nodata : Option ℚ) : Except Err (List (List Tok)) :=
  if g.t.dx ≠ g.t.dy then .error .other
  else if g.t.sx ≠ g.t.sy ∧ g.t.sy ≠ 0 then .error .other
  else
    match Indexer.getitem g.bands (.slice .all) (.slice .all) none with
    | .error e => .error e
    | .ok A =>
      let ref := if center then
          [[.key .xllcenter, .num (some (centerLlref g.t).1)], [.key .yllcenter, .num (some (centerLlref g.t).2)]]
        else [[.key .xllcorner, .num (some g.t.x0)], [.key .yllcorner, .num (some g.t.y0)]]
      .ok ([[.key .ncols, .num (some g.size.2)], [.key .nrows, .num (some g.size.1)]] ++ ref ++
        [[.key .cellsize, .num (some g.t.dx)], [.key .nodata, .num nodata]] ++ dataLines nodata A)

/-! ### GeoTIFF -/

/-- A GDAL geotransform: column `c` and row `r`, counted from the top left corner, have their corner at
`(g0 + c*g1 + r*g2, g3 + c*g4 + r*g5)`. -/
structure GeoT where
  g0 : ℚ
  g1 : ℚ
  g2 : ℚ
  g3 : ℚ
  g4 : ℚ
  g5 : ℚ
  deriving DecidableEq, Repr

/-- A GDAL dataset: size, geotransform, and bands with their nodata values.  Row 0 of a band is the top
row.  Coordinate systems, data types and creation options are left out. -/
structure Dataset (α : Type _) where
  ny : Nat
  nx : Nat
  gt : GeoT
  bands : List (Arr α × Option α)

variable {α : Type _}

/-- `Slice` `::-1` -/
def revSlice : Slice := ⟨none, none, some (-1)⟩

/-- `write`: the geotransform (_gdal.py 236-238). -/
def geoTransform (T : Xform) (ny : Nat) : GeoT :=
  ⟨T.x0 + ny * T.sx, T.dx, -T.sx, T.y0 + ny * T.dy, T.sy, -T.dy⟩

/-- One band written by `write` (_gdal.py 241-244): `grid[::-1,:,i]`. -/
def writeBand (garb : α) (g : RGrid α) (i : Nat) : Except Err (Arr α × Option α) :=
  match Indexer.getitem g.bands (.slice revSlice) (.slice .all) (some (.int i)) with
  | .error e => .error e
  | .ok A =>
    match A.shape with
    | [m, n] => .ok (⟨m, n, fun r c => (A.get [r, c]).getD garb⟩, some g.nodata)
    | _ => .error .valueError

/-- `to_geotiff` (grid.py 1066-1076, _gdal.py 197-250). -/
def RGrid.toGeotiff (garb : α) (g : RGrid α) : Except Err (Dataset α) :=
  match (List.range g.bands.length).mapM (writeBand garb g) with
  | .error e => .error e
  | .ok bs => .ok ⟨g.size.1, g.size.2, geoTransform g.t g.size.1, bs⟩

/-- The transform made by `read_geotiff` (read.py 42-47, _gdal.py 139-146). -/
def readTransform (gt : GeoT) (ny : Nat) : Xform :=
  ⟨gt.g0 - ny * gt.g2, gt.g3 + ny * gt.g5, gt.g1, -gt.g5, gt.g2, -gt.g4⟩

/-- One band read into memory (_gdal.py 175-180): `bands[i].setblock(0, 0, _arr.squeeze()[::-1])`.  With
a single row or column `squeeze` leaves one dimension and `setblock` calls `_getchunks` with an argument
missing (`TypeError`); with a single pixel it leaves none and `[::-1]` raises `IndexError`. -/
def readBand (zero : α) (a : Arr α) : Except Err (CBand α) :=
  if a.ny = 1 ∧ a.nx = 1 then .error .indexError
  else if a.ny = 1 ∨ a.nx = 1 then .error .typeError
  else mkBand zero ⟨a.ny, a.nx, fun r c => a.get (a.ny - 1 - r) c⟩

/-- `rasterbands = [dataset.GetRasterBand(i) for i in ibands]` (_gdal.py 133-136, 164): bands are numbered
from one, an unknown number is an error of GDAL (`other`); `none` stands for `ALL`. -/
def rasterBands (ds : Dataset α) : Option (List Nat) → Except Err (List (Arr α × Option α))
  | none => .ok ds.bands
  | some is => is.mapM fun i =>
      match ds.bands[i - 1]? with
      | some b => if i = 0 then .error .other else .ok b
      | none => .error .other

/-- `read_geotiff(fnm, in_memory=True, ibands)` (read.py 27-59, _gdal.py 114-188).  The nodata value is
that of the first band; `dflt` is `get_nodata` of its data type.  No band at all: `IndexError`. -/
def readGeotiff (zero dflt : α) (ds : Dataset α) (ibands : Option (List Nat)) : Except Err (RGrid α) :=
  match rasterBands ds ibands with
  | .error e => .error e
  | .ok [] => .error .indexError
  | .ok (b0 :: bs) =>
    match (b0 :: bs).mapM (fun b => readBand zero b.1) with
    | .error e => .error e
    | .ok bands => .ok ⟨readTransform ds.gt ds.ny, bands, b0.2.getD dflt⟩

/-- `GdalFileBand.getblock` (_gdal.py 36-42) on a band of a dataset.  GDAL refuses windows that are empty
or reach outside the raster (`other`). -/
def fileGetblock (a : Arr α) (yoff xoff ny nx : Int) : Except Err (Arr α) :=
  let top := (a.ny : Int) - yoff - ny
  if 0 ≤ top ∧ 0 ≤ xoff ∧ 0 < ny ∧ 0 < nx ∧ top + ny ≤ a.ny ∧ xoff + nx ≤ a.nx then
    .ok ⟨ny.toNat, nx.toNat, fun r c => a.get (top.toNat + (ny.toNat - 1 - r)) (xoff.toNat + c)⟩
  else .error .other

/-- The comparison of two headers in `from_geotiffs` (read.py 84-91): an entry raises `GridError` (`other`)
only if it is a NaN float in the new header and not NaN in the previous one.  Only the nodata value can
be NaN (`some none`); `np.isnan(None)` is a `TypeError`. -/
def compareHeaders (prev new : Option (Option ℚ)) : Except Err Unit :=
  match new, prev with
  | some none, none => .error .typeError
  | some none, some (some _) => .error .other
  | _, _ => .ok ()

/-- The loop of `from_geotiffs` (read.py 79-93): bands in reading order; `prev` is the nodata entry of the
previous header. -/
def geotiffsLoop : Option (Option (Option ℚ)) → List (Dataset (Option ℚ)) → Except Err (List (CBand (Option ℚ)))
  | _, [] => .ok []
  | prev, ds :: rest =>
    match ds.bands with
    | [] => .error .other
    | b :: _ =>
      match readBand (some 0) b.1 with
      | .error e => .error e
      | .ok band =>
        match (prev.map fun p => compareHeaders p b.2).getD (.ok ()) with
        | .error e => .error e
        | .ok _ =>
          match geotiffsLoop (some b.2) rest with
          | .error e => .error e
          | .ok bands => .ok (band :: bands)

/-- `from_geotiffs` (read.py 61-111), in memory, for floating point files.  Bands of different sizes are
refused by `RegularGrid` (grid.py 159-162). -/
def fromGeotiffs (dss : List (Dataset (Option ℚ))) : Except Err (RGrid (Option ℚ)) :=
  match dss with
  | [] => .error .valueError
  | ds :: _ =>
    match geotiffsLoop none dss with
    | .error e => .error e
    | .ok [] => .error .valueError
    | .ok (b0 :: bs) =>
      if bs.any fun b => decide ((b.ny, b.nx) ≠ (b0.ny, b0.nx)) then .error .valueError
      else .ok ⟨readTransform ds.gt ds.ny, b0 :: bs, ((ds.bands.head?.bind Prod.snd).getD none)⟩

/-! ### Data types -/

/-- Numpy data types and GDAL data types that occur in `_gdal.py` 68-112. -/
inductive NpType where
  | uint8 | uint16 | uint32 | uint64 | int8 | int16 | int32 | int64 | float32 | float64 | complex64 | complex128
  deriving DecidableEq, Repr

inductive GdType where
  | byte | uint16 | int16 | uint32 | int32 | float32 | float64 | cint16 | cint32 | cfloat32 | cfloat64
  deriving DecidableEq, Repr

/-- `gdal_type` (_gdal.py 88-112). -/
def gdalType : NpType → Except Err GdType
  | .uint8 => .ok .byte
  | .uint16 => .ok .uint16
  | .int8 => .ok .byte
  | .int16 => .ok .int16
  | .int32 => .ok .int32
  | .int64 => .ok .int32
  | .float32 => .ok .float32
  | .float64 => .ok .float64
  | .complex64 => .ok .cfloat64
  | _ => .error .typeError

/-- `numpy_dtype` (_gdal.py 68-86). -/
def numpyDtype : GdType → NpType
  | .byte => .uint8
  | .uint16 => .uint16
  | .int16 => .int16
  | .uint32 => .uint32
  | .int32 => .int32
  | .float32 => .float32
  | .float64 => .float64
  | .cint16 => .complex64
  | .cint32 => .complex64
  | .cfloat32 => .complex64
  | .cfloat64 => .complex64

end Karta.Grid
