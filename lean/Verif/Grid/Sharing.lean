import Verif.Py
import Mathlib.Data.List.Dedup

/-!
# Grids that share bands

Model of which grids see a change of which bands: constructors (karta/raster/grid.py 114-193; karta/raster/read.py 27-62), `copy` (grid.py
50-52), assignment (grid.py 215-217; karta/raster/band.py 111-199; karta/raster/_gdal.py 44-45), `set_nodata_value` (grid.py 243-256),
`resize` (grid.py 608-617) and the methods that build a grid of new values (grid.py 195-209, 558-570, 664-667).

Simplifications: transforms and coordinate systems, which are never changed, are left out; the bands of a grid have one size; a band is the
list of its pixels; the list `grid.bands` itself is not changed by the user.  `copy.deepcopy` of a GDAL object raises `TypeError`.
-/

namespace Karta.BandShare
open Karta

/-- The content of a band, and whether it is a `GdalFileBand`. -/
structure Band (V : Type) where
  file : Bool
  pix : List V
  deriving DecidableEq

/-- A `RegularGrid`: the identities of its bands and its nodata value. -/
structure GObj (V : Type) where
  ids : List Nat
  nodata : V

/-- All objects: the bands, the next free identity, the bands made by the user in order, and the grids in order. -/
structure St (V : Type) where
  heap : Nat → Band V
  next : Nat
  own : List Nat
  grids : List (GObj V)

/-- A way to name a band: the `n`-th the user made, or `grids[g].bands[k]`. -/
inductive Handle where
  | own (n : Nat)
  | of (g k : Nat)
  deriving DecidableEq

/-- The calls of a history. -/
inductive Op (V : Type) where
  /-- `CompressedBand(…)`, filled. -/
  | band (pix : List V)
  /-- `RegularGrid(T, values=…, nodata_value=…)`. -/
  | make (imgs : List (List V)) (nodata : V)
  /-- `read_geotiff(fnm, in_memory=False)`. -/
  | openFile (imgs : List (List V)) (nodata : V)
  /-- `RegularGrid(T, bands=[…], nodata_value=…)`. -/
  | wrap (hs : List Handle) (nodata : V)
  /-- `grid.copy()`. -/
  | copy (g : Nat)
  /-- `grid[…] = …`, `grid.apply(…, inplace=True)`, `grid.mask_by_poly(…, inplace=True)`: `f k` is what happens to the pixels of band `k`. -/
  | write (g : Nat) (f : Nat → List V → List V)
  /-- `grid.set_nodata_value(v)`. -/
  | setNodata (g : Nat) (v : V)
  /-- A method that makes a grid of new values, such as `clip`, `+` or `mask_by_poly`. -/
  | derive (g : Nat) (F : V → List (List V) → List (List V))
  /-- `grid.resize(bbox)`: `F` is what happens to the pixels of each band. -/
  | resize (g : Nat) (F : V → List V → List V)

variable {V : Type} [DecidableEq V]

/-- New bands in memory or on file. -/
def alloc (bs : List (Band V)) (s : St V) : St V :=
  { s with heap := fun j => if s.next ≤ j then (bs[j - s.next]?).getD (s.heap j) else s.heap j, next := s.next + bs.length }

/-- A grid of new bands. -/
def addGrid (bs : List (Band V)) (nodata : V) (s : St V) : St V :=
  { alloc bs s with grids := s.grids ++ [⟨(List.range bs.length).map (s.next + ·), nodata⟩] }

/-- The band a handle names. -/
def resolve (s : St V) : Handle → Option Nat
  | .own n => s.own[n]?
  | .of g k => (s.grids[g]?).bind fun o => o.ids[k]?

/-- The loop over bands of an assignment (band.py 167-170, 187-199): `GdalFileBand.setblock` raises (_gdal.py 44-45). -/
def writeBands (f : Nat → List V → List V) : Nat → List Nat → (Nat → Band V) → (Nat → Band V) × Option Err
  | _, [], h => (h, none)
  | k, i :: is, h =>
    if (h i).file then (h, some .notImplemented)
    else writeBands f (k + 1) is (fun j => if j = i then { h i with pix := f k (h i).pix } else h j)

/-- `np.where(mask, values, val)` (grid.py 254). -/
def relabel (old new : V) (pix : List V) : List V := pix.map fun v => if v = old then new else v

/-- One call. -/
def step (s : St V) : Op V → St V × Option Err
  | .band pix => ({ alloc [⟨false, pix⟩] s with own := s.own ++ [s.next] }, none)
  | .make imgs nodata => (addGrid (imgs.map fun p => ⟨false, p⟩) nodata s, none)
  | .openFile imgs nodata => (addGrid (imgs.map fun p => ⟨true, p⟩) nodata s, none)
  | .wrap hs nodata =>
    match hs.mapM (resolve s) with
    | none => (s, some .indexError)
    | some [] => (s, some .indexError)
    | some (i :: is) => ({ s with grids := s.grids ++ [⟨i :: is, nodata⟩] }, none)
  | .copy g =>
    match s.grids[g]? with
    | none => (s, some .nameError)
    | some o =>
      if o.ids.any fun i => (s.heap i).file then (s, some .typeError)
      else
        ({ alloc (o.ids.dedup.map s.heap) s with
          grids := s.grids ++ [⟨o.ids.map fun i => s.next + o.ids.dedup.idxOf i, o.nodata⟩] }, none)
  | .write g f =>
    match s.grids[g]? with
    | none => (s, some .nameError)
    | some o => ({ s with heap := (writeBands f 0 o.ids s.heap).1 }, (writeBands f 0 o.ids s.heap).2)
  | .setNodata g v =>
    match s.grids[g]? with
    | none => (s, some .nameError)
    | some o =>
      match writeBands (fun _ => relabel o.nodata v) 0 o.ids s.heap with
      | (h, some e) => ({ s with heap := h }, some e)
      | (h, none) => ({ s with heap := h, grids := s.grids.set g { o with nodata := v } }, none)
  | .derive g F =>
    match s.grids[g]? with
    | none => (s, some .nameError)
    | some o => (addGrid ((F o.nodata (o.ids.map fun i => (s.heap i).pix)).map fun p => ⟨false, p⟩) o.nodata s, none)
  | .resize g F =>
    match s.grids[g]? with
    | none => (s, some .nameError)
    | some o =>
      if o.ids.any fun i => (s.heap i).file then (s, some .typeError)
      else (addGrid (o.ids.map fun i => ⟨false, F o.nodata (s.heap i).pix⟩) o.nodata s, none)

/-- A history from a given state, and the errors raised, call by call. -/
def run (s : St V) : List (Op V) → St V × List (Option Err)
  | [] => (s, [])
  | op :: ops => ((run (step s op).1 ops).1, (step s op).2 :: (run (step s op).1 ops).2)

end Karta.BandShare
