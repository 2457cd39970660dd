import Verif.Grid.Coord
import Verif.Band.Indexer

/-!
Model of the `RegularGrid` operations that move pixels about: construction from an array,
`aschunks`, `clip`, `resize`, `set_nodata_value` and the data masks
(karta/raster/grid.py 114-194, 243-256, 465-617).

Pixels are values of a type `α` with decidable equality in which NaN, if present, is an ordinary
value: `~np.isnan(a)` for a NaN nodata value and `a != nodata` otherwise are then both `a ≠ nodata`.
Coordinate systems are left out.
-/

namespace Karta.Grid
open Karta Karta.Band

variable {α : Type _}

/-- A `RegularGrid`: transform, bands of the default class and nodata value (grid.py 114-194). -/
structure RGrid (α : Type _) where
  t : Xform
  bands : List (CBand α)
  nodata : α

/-- `size` (grid.py 230-231). -/
def RGrid.size (g : RGrid α) : Nat × Nat :=
  match g.bands with
  | [] => (0, 0)
  | b :: _ => (b.ny, b.nx)

/-- One band made from an array in `RegularGrid.__init__` (grid.py 167-177): a `CompressedBand` with
the default chunk size 256 and initial value zero, filled by `setblock(0, 0, values)`. -/
def mkBand (zero : α) (a : Arr α) : Except Err (CBand α) :=
  match (CBand.new a.ny a.nx 256 256 zero).setblock 0 0 a with
  | (b, none) => .ok b
  | (_, some e) => .error e

/-- `RegularGrid(transform, values)` (grid.py 114-194).  `garb` stands for the contents of cells that
numpy left uninitialised. -/
def fromValues (zero garb : α) (t : Xform) (nodata : α) (A : NdArr (Option α)) :
    Except Err (RGrid α) :=
  match A.shape with
  | [m, n] =>
    match mkBand zero ⟨m, n, fun r c => (A.get [r, c]).getD garb⟩ with
    | .error e => .error e
    | .ok b => .ok ⟨t, [b], nodata⟩
  | [m, n, p] =>
    match (List.range p).mapM (fun k => mkBand zero ⟨m, n, fun r c => (A.get [r, c, k]).getD garb⟩) with
    | .error e => .error e
    | .ok bs => .ok ⟨t, bs, nodata⟩
  | _ => .error .valueError

/-- `slice(a, b)` -/
def sl (a b : Int) : Key := .slice ⟨some a, some b, none⟩

/-- The pattern `RegularGrid(T, values=self[i0:i1, j0:j1].copy(), nodata_value=self.nodata)` of `clip`
(grid.py 557-562) and `aschunks` (grid.py 515-522). -/
def RGrid.sub (zero garb : α) (g : RGrid α) (t : Xform) (i0 i1 j0 j1 : Int) : Except Err (RGrid α) :=
  match Indexer.getitem g.bands (sl i0 i1) (sl j0 j1) none with
  | .error e => .error e
  | .ok A => fromValues zero garb t g.nodata A

/-- The transform of a window whose first cell is `(i0, j0)` (grid.py 512-514 and 558-560). -/
def Xform.moved (T : Xform) (i0 j0 : Int) : Xform :=
  { T with x0 := T.x0 + (j0 : ℚ) * T.dx + (i0 : ℚ) * T.sx
           y0 := T.y0 + (i0 : ℚ) * T.dy + (j0 : ℚ) * T.sy }

/-- The loop of `aschunks` (grid.py 503-523) for window size `(w, h)` and overlap `(ow, oh)`: the
first cells of the windows yielded from the state `(i0, j0)` on.  `none` when the loop has not ended
after `fuel` rounds. -/
def chunkLoop (ny nx w h ow oh : Int) : Nat → Int → Int → Option (List (Int × Int))
  | 0, _, _ => none
  | fuel + 1, i0, j0 =>
    let i1 := if j0 ≥ nx then i0 + (h - oh) else i0
    let j1 := if j0 ≥ nx then 0 else j0
    if i1 ≥ ny then some []
    else (chunkLoop ny nx w h ow oh fuel i1 (j1 + (w - ow))).map ((i1, j1) :: ·)

/-- `aschunks` (grid.py 479-523), run to the end.  `size = none` is the default `(-1, -1)`.
Simplification: the grid is not modified while the generator is being consumed. -/
def RGrid.aschunks (zero garb : α) (g : RGrid α) (size : Option (Int × Int)) (overlap : Int × Int)
    (fuel : Nat) : Option (Except Err (List (RGrid α))) :=
  let ny : Int := g.size.1
  let nx : Int := g.size.2
  let s := match size with
    | none => (nx / 4, ny / 4)
    | some s => s
  (chunkLoop ny nx s.1 s.2 overlap.1 overlap.2 fuel 0 0).map fun os =>
    os.mapM fun o => g.sub zero garb (g.t.moved o.1 o.2) o.1 (o.1 + s.2) o.2 (o.2 + s.1)

/-- Index bounds computed by `clip` (grid.py 545-554): `(i0, i1, j0, j1)`. -/
def clipBounds (T : Xform) (xmin xmax ymin ymax : ℚ) : Option (Int × Int × Int × Int) :=
  match positions T xmin ymin, positions T xmax ymin, positions T xmin ymax, positions T xmax ymax with
  | some ll, some lr, some ul, some ur =>
    some (⌈min (min ll.1 lr.1) (min ul.1 ur.1)⌉, ⌊max (max ll.1 lr.1) (max ul.1 ur.1)⌋ + 1,
          ⌈min (min ll.2 lr.2) (min ul.2 ur.2)⌉, ⌊max (max ll.2 lr.2) (max ul.2 ur.2)⌋ + 1)
  | _, _, _, _ => none

/-- `clip` (grid.py 525-562) without change of coordinate system.  The outer `none` stands for
undefined positions (converting NaN to an integer). -/
def RGrid.clip (zero garb : α) (g : RGrid α) (xmin xmax ymin ymax : ℚ) :
    Option (Except Err (RGrid α)) :=
  (clipBounds g.t xmin xmax ymin ymax).map fun b =>
    g.sub zero garb (g.t.moved b.1 b.2.2.1) b.1 b.2.1 b.2.2.1 b.2.2.2

/-- The local function `_round` of `resize` (grid.py 577-582): halves go down. -/
def roundHalfDown (a : ℚ) : Int := if a - ⌊a⌋ ≤ 1 / 2 then ⌊a⌋ else ⌊a⌋ + 1

/-- One band of `resize` (grid.py 607-613). -/
def resizeBand (garb nodata : α) (ny nx : Nat) (i0n j0n i0 j0 h w : Int) (b : CBand α) :
    Except Err (CBand α) :=
  match b.getblock i0 j0 h w with
  | .error e => .error e
  | .ok blk =>
    match (CBand.new ny nx 256 256 nodata).setblock i0n j0n (blk.map fun o => o.getD garb) with
    | (b', none) => .ok b'
    | (_, some e) => .error e

/-- `resize` (grid.py 564-617) to the box `(xmin, ymin, xmax, ymax)`.  Division by a zero spacing
raises; a negative number of rows or columns makes the chunk count of the new band negative or zero
and is reported here as `ValueError`. -/
def RGrid.resize (garb : α) (g : RGrid α) (xmin ymin xmax ymax : ℚ) : Except Err (RGrid α) :=
  if g.t.dx = 0 ∨ g.t.dy = 0 then .error .zeroDivision
  else
    let bb := bbox g.t g.size.1 g.size.2
    let dx := g.t.dx
    let dy := g.t.dy
    let xmax' := xmin + dx * (⌈(xmax - xmin) / dx⌉ : ℚ)
    let ymax' := ymin + dy * (⌈(ymax - ymin) / dy⌉ : ℚ)
    let ny : Int := g.size.1
    let nx : Int := g.size.2
    let nxnew := roundHalfDown ((xmax' - xmin) / dx)
    let nynew := roundHalfDown ((ymax' - ymin) / dy)
    if nxnew < 0 ∨ nynew < 0 then .error .valueError
    else
      let j0new := max 0 (roundHalfDown ((bb.1 - xmin) / dx))
      let i0new := max 0 (roundHalfDown ((bb.2.1 - ymin) / dy))
      let j0 := max 0 (roundHalfDown ((xmin - bb.1) / dx))
      let j1 := min nx (roundHalfDown ((xmax' - bb.1) / dx))
      let i0 := max 0 (roundHalfDown ((ymin - bb.2.1) / dy))
      let i1 := min ny (roundHalfDown ((ymax' - bb.2.1) / dy))
      match g.bands.mapM (resizeBand garb g.nodata nynew.toNat nxnew.toNat i0new j0new i0 j0
        (i1 - i0) (j1 - j0)) with
      | .error e => .error e
      | .ok bs => .ok ⟨{ g.t with x0 := xmin, y0 := ymin }, bs, g.nodata⟩

/-- `np.dstack` of the comparisons of each band with the nodata value (grid.py 467-472). -/
def stackMask [DecidableEq α] (garb nodata : α) (ny nx : Nat) (ms : List (NdArr (Option α))) : NdArr Bool :=
  ⟨[ny, nx, ms.length], fun
    | [r, c, k] => match ms[k]? with
      | some A => decide ((A.get [r, c]).getD garb ≠ nodata)
      | none => false
    | _ => false⟩

/-- `data_mask_full` (grid.py 465-472): one mask per band, stacked. -/
def RGrid.dataMaskFull [DecidableEq α] (garb : α) (g : RGrid α) : Except Err (NdArr Bool) :=
  match (List.range g.bands.length).mapM
      (fun (k : Nat) => Indexer.getitem g.bands (.slice .all) (.slice .all) (some (.int k))) with
  | .error e => .error e
  | .ok ms => .ok (stackMask garb g.nodata g.size.1 g.size.2 ms)

/-- `data_mask` (grid.py 474-477): `np.all(data_mask_full, axis=-1)`. -/
def RGrid.dataMask [DecidableEq α] (garb : α) (g : RGrid α) : Except Err (Arr Bool) :=
  match g.dataMaskFull garb with
  | .error e => .error e
  | .ok M => .ok ⟨g.size.1, g.size.2,
      fun r c => (List.range g.bands.length).all fun k => M.get [r, c, k]⟩

/-- `set_nodata_value` (grid.py 243-256).  The grid reached is returned together with an exception. -/
def RGrid.setNodata [DecidableEq α] (garb : α) (g : RGrid α) (val : α) : RGrid α × Option Err :=
  match g.dataMaskFull garb with
  | .error e => (g, some e)
  | .ok M =>
    match Indexer.getitem g.bands (.slice .all) (.slice .all) (some (.slice .all)) with
    | .error e => (g, some e)
    | .ok A =>
      let v : Indexer.Value α :=
        ⟨true, ⟨A.shape, fun ix => if M.get ix then (A.get ix).getD garb else val⟩⟩
      match Indexer.setitem g.bands (.slice .all) (.slice .all) (some (.slice .all)) v with
      | (bs, some e) => ({ g with bands := bs }, some e)
      | (bs, none) => ({ g with bands := bs, nodata := val }, none)

end Karta.Grid
