import Verif.Grid.Sample

/-!
Model of the whole-grid operations of `RegularGrid` that build on point sampling and on reading all
pixels: `resample`, `_resample_transform`, `_align_origin` (karta/raster/grid.py 670-760), `+` and `-`
(196-221), `data_extent` and `data_bbox` (334-336, 389-463), `max`, `min` and `minmax` (26-48).

Coordinates are exact rationals, coordinate systems are left out (all are the grid's own).
-/

namespace Karta.Grid
open Karta Karta.Band

variable {α : Type _}

/-! ### Resampling -/

/-- The `method` argument of `resample` (grid.py 750-755). -/
inductive Method where
  | nearest
  | linear
  | other
  deriving DecidableEq, Repr

/-- `cg[:,:]` raveled (coordgen.py 51-65): the points of an `ny × nx` grid, row by row.  The flag says
whether the arrays are two-dimensional: `meshgrid` is applied only when both axes have more than one
entry, otherwise the two index vectors broadcast to one vector, which fails for lengths 0 and `n > 1`. -/
def coordsAll (T : Xform) (ny nx : Nat) : Except Err (Bool × List (ℚ × ℚ)) :=
  if (ny = 0 ∧ 1 < nx) ∨ (nx = 0 ∧ 1 < ny) then .error .valueError
  else .ok (decide (1 < ny ∧ 1 < nx),
    (List.range ny).flatMap fun (i : Nat) => (List.range nx).map fun (j : Nat) => coordGen T i j)

/-- The array handed to the constructor (grid.py 757-760): for two-dimensional coordinates the sampled
values, one list per band, are reshaped to `p × m × n` (grid.py 892 and 969) and transposed to
`m × n × p`; for one-dimensional coordinates the `p × n` array is used as it is. -/
def asValues (two : Bool) (ny nx : Nat) (out : List (List α)) : NdArr (Option α) :=
  if two then
    ⟨[ny, nx, out.length], fun
      | [i, j, k] => (out[k]?).bind fun vs => vs[i * nx + j]?
      | _ => none⟩
  else
    ⟨[out.length, ny * nx], fun
      | [k, s] => (out[k]?).bind fun vs => vs[s]?
      | _ => none⟩

/-- Sampling by `method` (grid.py 685-690, 750-755).  `kern` is the interpolation routine for the type
of the bands. -/
def RGrid.sampleBy (kern : Arr α → ℚ → ℚ → Except Err α) (garb : α) (g : RGrid α) (pts : List (ℚ × ℚ)) :
    Method → Option (Except Err (List (List α)))
  | .nearest => g.sampleNearest garb pts
  | .linear => g.sampleBilinear kern garb pts
  | .other => some (.error .notImplemented)

/-- The common body of `_resample_transform` (grid.py 683-694) and `resample` (grid.py 747-760): sample
the centres of an `ny × nx` grid with transform `t` and make a grid of the values. -/
def RGrid.resampleOnto (zero garb : α) (kern : Arr α → ℚ → ℚ → Except Err α) (g : RGrid α) (m : Method)
    (t : Xform) (ny nx : Nat) : Option (Except Err (RGrid α)) :=
  match coordsAll t ny nx with
  | .error e => some (.error e)
  | .ok (two, pts) =>
    (g.sampleBy kern garb pts m).map fun r =>
      match r with
      | .error e => .error e
      | .ok out => fromValues zero garb t g.nodata (asValues two ny nx out)

/-- The transform of the resampled grid (grid.py 745-746). -/
def resampledXform (T : Xform) (ny nx : Nat) (dx dy : ℚ) : Xform :=
  let e := extent T ny nx true
  ⟨e.1 - 1 / 2 * dx - 1 / 2 * T.sx, e.2.2.1 - 1 / 2 * dy - 1 / 2 * T.sy, dx, dy, T.sx, T.sy⟩

/-- The numbers of rows and columns of the resampled grid (grid.py 741-743). -/
def resampledSize (T : Xform) (ny nx : Nat) (dx dy : ℚ) : Nat × Nat :=
  let e := extent T ny nx true
  ((⌊(e.2.2.2 - e.2.2.1) / dy⌋ + 1).toNat, (⌊(e.2.1 - e.1) / dx⌋ + 1).toNat)

/-- `resample` (grid.py 724-760). -/
def RGrid.resample (zero garb : α) (kern : Arr α → ℚ → ℚ → Except Err α) (g : RGrid α) (dx dy : ℚ) (m : Method) :
    Option (Except Err (RGrid α)) :=
  if dx ≤ 0 ∨ dy ≤ 0 then some (.error .valueError)
  else
    let n := resampledSize g.t g.size.1 g.size.2 dx dy
    g.resampleOnto zero garb kern m (resampledXform g.t g.size.1 g.size.2 dx dy) n.1 n.2

/-- `_align_origin` (grid.py 696-722) with `_resample_transform` (grid.py 670-694): the anchor moves to a
multiple of `(x, y)` and the grid keeps its size. -/
def RGrid.alignOrigin (zero garb : α) (kern : Arr α → ℚ → ℚ → Except Err α) (g : RGrid α) (x y : ℚ) (m : Method) :
    Option (Except Err (RGrid α)) :=
  if x = 0 ∨ y = 0 then some (.error .zeroDivision)
  else
    g.resampleOnto zero garb kern m
      { g.t with x0 := x * (rint (g.t.x0 / x) : ℚ), y0 := y * (rint (g.t.y0 / y) : ℚ) } g.size.1 g.size.2

/-! ### Arithmetic -/

/-- `a + b` of two arrays read by `self[:,:]`, of shapes `ny × nx × p` and `ny × nx × q`: the band axes
broadcast when equal or when one of them is 1 (grid.py 199 and 207). -/
def bandwise (f : α → α → α) (garb : α) (A B : NdArr (Option α)) : Except Err (NdArr (Option α)) :=
  match A.shape, B.shape with
  | [m, n, p], [m', n', q] =>
    if m = m' ∧ n = n' ∧ (p = q ∨ p = 1 ∨ q = 1) then
      .ok ⟨[m, n, if p = 1 then q else p], fun
        | [r, c, k] => some (f ((A.get [r, c, if p = 1 then 0 else k]).getD garb)
            ((B.get [r, c, if q = 1 then 0 else k]).getD garb))
        | _ => none⟩
    else .error .valueError
  | _, _ => .error .valueError

/-- `__add__` and `__sub__` (grid.py 196-210) with `_equivalent_structure` (grid.py 219-221); `f` is the
pixel operation. -/
def RGrid.combine (f : α → α → α) (zero garb : α) (g h : RGrid α) : Except Err (RGrid α) :=
  if g.t = h.t ∧ g.size = h.size then
    match Indexer.getitem g.bands (.slice .all) (.slice .all) none with
    | .error e => .error e
    | .ok A =>
      match Indexer.getitem h.bands (.slice .all) (.slice .all) none with
      | .error e => .error e
      | .ok B =>
        match bandwise f garb A B with
        | .error e => .error e
        | .ok C => fromValues zero garb g.t g.nodata C
  else .error .valueError

/-! ### Extent of the data -/

/-- The running result of `data_extent`: `(lx, rx, by, ty)` (grid.py 415-423).  `bx`, `tx`, `ly` and `ry`
are used only for a change of coordinate system and are left out. -/
structure DExt where
  lx : ℚ
  rx : ℚ
  by' : ℚ
  ty : ℚ
  deriving DecidableEq, Repr

/-- The centres of the data cells of one row (grid.py 428-429). -/
def rowData (T : Xform) (nx : Nat) (i : Nat) (isdata : Nat → Bool) : List (ℚ × ℚ) :=
  ((List.range nx).filter isdata).map fun (j : Nat) =>
    (T.x0 + 1 / 2 * T.dx + 1 / 2 * T.sx + (j : ℚ) * T.dx + (i : ℚ) * T.sx,
     T.y0 + 1 / 2 * T.dy + 1 / 2 * T.sy + (i : ℚ) * T.dy + (j : ℚ) * T.sy)

/-- One round of the loop of `data_extent` (grid.py 431-446). -/
def DExt.row (s : DExt) : List (ℚ × ℚ) → DExt
  | [] => s
  | p :: ps =>
    let xmax := vmax p.1 (ps.map Prod.fst)
    let xmin := vmin p.1 (ps.map Prod.fst)
    let ymax := vmax p.2 (ps.map Prod.snd)
    let ymin := vmin p.2 (ps.map Prod.snd)
    ⟨if xmin < s.lx then xmin else s.lx, if xmax > s.rx then xmax else s.rx,
     if ymin < s.by' then ymin else s.by', if ymax > s.ty then ymax else s.ty⟩

/-- The starting values (grid.py 409-423): `rx` starts at `y0`. -/
def DExt.start (T : Xform) (ny nx : Nat) : DExt :=
  let x0 := T.x0 + 1 / 2 * T.dx + 1 / 2 * T.sx
  let y0 := T.y0 + 1 / 2 * T.dy + 1 / 2 * T.sy
  ⟨x0 + (nx : ℚ) * T.dx, y0, y0 + (ny : ℚ) * T.dy, y0⟩

/-- The shift to cell edges (grid.py 448-454). -/
def DExt.edges (T : Xform) (s : DExt) : DExt :=
  ⟨s.lx - (1 / 2 * T.dx - 1 / 2 * T.sx), s.rx + (1 / 2 * T.dx + 1 / 2 * T.sx),
   s.by' - (1 / 2 * T.dy - 1 / 2 * T.sy), s.ty + (1 / 2 * T.dy + 1 / 2 * T.sy)⟩

/-- `data_extent` (grid.py 389-463) without change of coordinate system; `edge` selects
`reference='edge'`, `nd` is the optional nodata argument.  With several bands `isdata(row.squeeze())` does
not have the shape of the coordinate vector and indexing with it raises `IndexError`. -/
def RGrid.dataExtent [DecidableEq α] (garb : α) (g : RGrid α) (edge : Bool) (nd : Option α) : Except Err DExt :=
  match Indexer.getitem g.bands (.slice .all) (.slice .all) none with
  | .error e => .error e
  | .ok A =>
    if g.bands.length ≠ 1 ∧ 0 < g.size.1 then .error .indexError
    else
      let s := (List.range g.size.1).foldl (fun s i => s.row (rowData g.t g.size.2 i fun j =>
        decide ((A.get [i, j, 0]).getD garb ≠ nd.getD g.nodata))) (DExt.start g.t g.size.1 g.size.2)
      .ok (if edge then s.edges g.t else s)

/-- `data_bbox` (grid.py 334-336): `(xmin, ymin, xmax, ymax)`. -/
def RGrid.dataBbox [DecidableEq α] (garb : α) (g : RGrid α) : Except Err (ℚ × ℚ × ℚ × ℚ) :=
  (g.dataExtent garb true none).map fun e => (e.lx, e.by', e.rx, e.ty)

/-! ### Extreme values -/

/-- `tmp.min()` and `tmp.max()`; `none` is the NaN returned for an empty selection (grid.py 29-32). -/
def extreme (op : ℚ → ℚ → ℚ) : List ℚ → Option ℚ
  | [] => none
  | v :: vs => some (vs.foldl op v)

/-- `self[self.data_mask]` (grid.py 28 and 36), flattened: the values of all bands at the cells that hold
data in every band. -/
def RGrid.maskedAll (garb : ℚ) (g : RGrid ℚ) : Except Err (List ℚ) :=
  match g.dataMask garb with
  | .error e => .error e
  | .ok m =>
    match Indexer.getMask2 g.bands m with
    | .error e => .error e
    | .ok A =>
      match A.shape with
      | [n, p] => .ok ((List.range n).flatMap fun t => (List.range p).map fun k => (A.get [t, k]).getD garb)
      | _ => .error .valueError

/-- `max` (grid.py 26-32). -/
def RGrid.maxValue (garb : ℚ) (g : RGrid ℚ) : Except Err (Option ℚ) := (g.maskedAll garb).map (extreme max)

/-- `min` (grid.py 34-40). -/
def RGrid.minValue (garb : ℚ) (g : RGrid ℚ) : Except Err (Option ℚ) := (g.maskedAll garb).map (extreme min)

/-- `minmax` (grid.py 42-48), by the mask of each band. -/
def RGrid.minmax (garb : ℚ) (g : RGrid ℚ) : Except Err (Option ℚ × Option ℚ) :=
  match g.dataMaskFull garb with
  | .error e => .error e
  | .ok M =>
    match Indexer.getMask3 g.bands g.size.1 g.size.2 g.bands.length
        (fun k => ⟨g.size.1, g.size.2, fun r c => M.get [r, c, k]⟩) with
    | .error e => .error e
    | .ok vs => .ok (extreme min (vs.map fun v => v.getD garb), extreme max (vs.map fun v => v.getD garb))

end Karta.Grid
