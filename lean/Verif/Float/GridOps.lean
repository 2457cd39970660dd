import Verif.Float.Units
import Verif.Grid.Merge
import Verif.Grid.Resample

/-!
# Grid operations in floating point

`extent`, `clip`, `resize`, `resample`, `merge` and `gridpoints` with every operation on coordinates rounded.  Pixel values stay exact.
Quotients `a // b` are exact in Python and numpy (the remainder is computed first) as long as they are less than `2 ^ 51`.
-/

namespace Karta.Float
open Karta Karta.Grid Karta.Band

variable {α : Type _} (R : Rounding)

/-- Far bound along one axis in `extent` (grid.py 366-374). `sgn` has the values -1, 0 and 1, which are exact. -/
def farBoundF (x0 d s n m : ℚ) : ℚ :=
  if sgn d = sgn s then R.fl (R.fl (x0 + R.fl (d * n)) + R.fl (s * m)) else R.fl (R.fl (x0 + R.fl (d * n)) - R.fl (s * m))

/-- `center_llref` (grid.py 258-264). -/
def centerLlrefF (T : Xform) : ℚ × ℚ :=
  (R.fl (T.x0 + R.fl (1 / 2 * R.fl (T.dx + T.sx))), R.fl (T.y0 + R.fl (1 / 2 * R.fl (T.dy + T.sy))))

/-- `extent` (grid.py 342-387) with `crs=None`. -/
def extentF (T : Xform) (ny nx : Nat) (center : Bool) : ℚ × ℚ × ℚ × ℚ :=
  let p := if center then centerLlrefF R T else (T.x0, T.y0)
  let n : ℚ := if center then -1 else 0
  let x1 := farBoundF R p.1 T.dx T.sx (nx + n) (ny + n)
  let y1 := farBoundF R p.2 T.dy T.sy (ny + n) (nx + n)
  (min p.1 x1, max p.1 x1, min p.2 y1, max p.2 y1)

/-- `bbox` (grid.py 338-340). -/
def bboxF (T : Xform) (ny nx : Nat) : ℚ × ℚ × ℚ × ℚ :=
  let e := extentF R T ny nx false
  (e.1, e.2.2.1, e.2.1, e.2.2.2)

/-- The transform of a window whose first cell is `(i0, j0)` (grid.py 558-560). -/
def movedF (T : Xform) (i0 j0 : Int) : Xform :=
  { T with x0 := R.fl (R.fl (T.x0 + R.fl ((j0 : ℚ) * T.dx)) + R.fl ((i0 : ℚ) * T.sx))
           y0 := R.fl (R.fl (T.y0 + R.fl ((i0 : ℚ) * T.dy)) + R.fl ((j0 : ℚ) * T.sy)) }

/-- Index bounds computed by `clip` (grid.py 545-554). -/
def clipBoundsF (T : Xform) (xmin xmax ymin ymax : ℚ) : Option (Int × Int × Int × Int) :=
  match positionsF R T xmin ymin, positionsF R T xmax ymin, positionsF R T xmin ymax, positionsF R T xmax ymax with
  | some ll, some lr, some ul, some ur =>
    some (⌈min (min ll.1 lr.1) (min ul.1 ur.1)⌉, ⌊max (max ll.1 lr.1) (max ul.1 ur.1)⌋ + 1,
          ⌈min (min ll.2 lr.2) (min ul.2 ur.2)⌉, ⌊max (max ll.2 lr.2) (max ul.2 ur.2)⌋ + 1)
  | _, _, _, _ => none

/-- `clip` (grid.py 525-562) without change of coordinate system. -/
def clipF (zero garb : α) (g : RGrid α) (xmin xmax ymin ymax : ℚ) : Option (Except Err (RGrid α)) :=
  (clipBoundsF R g.t xmin xmax ymin ymax).map fun b =>
    g.sub zero garb (movedF R g.t b.1 b.2.2.1) b.1 b.2.1 b.2.2.1 b.2.2.2

/-- `resize` (grid.py 564-617). -/
def resizeF (garb : α) (g : RGrid α) (xmin ymin xmax ymax : ℚ) : Except Err (RGrid α) :=
  if g.t.dx = 0 ∨ g.t.dy = 0 then .error .zeroDivision
  else
    let bb := bboxF R g.t g.size.1 g.size.2
    let dx := g.t.dx
    let dy := g.t.dy
    let xmax' := R.fl (xmin + R.fl (dx * (⌈R.fl (R.fl (xmax - xmin) / dx)⌉ : ℚ)))
    let ymax' := R.fl (ymin + R.fl (dy * (⌈R.fl (R.fl (ymax - ymin) / dy)⌉ : ℚ)))
    let ny : Int := g.size.1
    let nx : Int := g.size.2
    let nxnew := roundHalfDownF R (R.fl (R.fl (xmax' - xmin) / dx))
    let nynew := roundHalfDownF R (R.fl (R.fl (ymax' - ymin) / dy))
    if nxnew < 0 ∨ nynew < 0 then .error .valueError
    else
      let j0new := max 0 (roundHalfDownF R (R.fl (R.fl (bb.1 - xmin) / dx)))
      let i0new := max 0 (roundHalfDownF R (R.fl (R.fl (bb.2.1 - ymin) / dy)))
      let j0 := max 0 (roundHalfDownF R (R.fl (R.fl (xmin - bb.1) / dx)))
      let j1 := min nx (roundHalfDownF R (R.fl (R.fl (xmax' - bb.1) / dx)))
      let i0 := max 0 (roundHalfDownF R (R.fl (R.fl (ymin - bb.2.1) / dy)))
      let i1 := min ny (roundHalfDownF R (R.fl (R.fl (ymax' - bb.2.1) / dy)))
      match g.bands.mapM (resizeBand garb g.nodata nynew.toNat nxnew.toNat i0new j0new i0 j0
        (i1 - i0) (j1 - j0)) with
      | .error e => .error e
      | .ok bs => .ok ⟨{ g.t with x0 := xmin, y0 := ymin }, bs, g.nodata⟩

/-- `cg[:,:]` raveled (coordgen.py 51-65). -/
def coordsAllF (T : Xform) (ny nx : Nat) : Except Err (Bool × List (ℚ × ℚ)) :=
  if (ny = 0 ∧ 1 < nx) ∨ (nx = 0 ∧ 1 < ny) then .error .valueError
  else .ok (decide (1 < ny ∧ 1 < nx),
    (List.range ny).flatMap fun (i : Nat) => (List.range nx).map fun (j : Nat) => coordGenF R T i j)

/-- The transform of the resampled grid (grid.py 745-746). -/
def resampledXformF (T : Xform) (ny nx : Nat) (dx dy : ℚ) : Xform :=
  let e := extentF R T ny nx true
  ⟨R.fl (R.fl (e.1 - R.fl (1 / 2 * dx)) - R.fl (1 / 2 * T.sx)), R.fl (R.fl (e.2.2.1 - R.fl (1 / 2 * dy)) - R.fl (1 / 2 * T.sy)),
    dx, dy, T.sx, T.sy⟩

/-- The numbers of rows and columns of the resampled grid (grid.py 741-743). -/
def resampledSizeF (T : Xform) (ny nx : Nat) (dx dy : ℚ) : Nat × Nat :=
  let e := extentF R T ny nx true
  ((⌊R.fl (e.2.2.2 - e.2.2.1) / dy⌋ + 1).toNat, (⌊R.fl (e.2.1 - e.1) / dx⌋ + 1).toNat)

/-- `resample` (grid.py 724-760) with `method='nearest'`. -/
def resampleF (zero garb : α) (g : RGrid α) (dx dy : ℚ) : Option (Except Err (RGrid α)) :=
  if dx ≤ 0 ∨ dy ≤ 0 then some (.error .valueError)
  else
    let n := resampledSizeF R g.t g.size.1 g.size.2 dx dy
    let t := resampledXformF R g.t g.size.1 g.size.2 dx dy
    match coordsAllF R t n.1 n.2 with
    | .error e => some (.error e)
    | .ok (two, pts) =>
      ((pts.mapM fun p => indicesRawF R g.t p.1 p.2).map (nearestAt garb g)).map fun r =>
        match r with
        | .error e => .error e
        | .ok out => fromValues zero garb t g.nodata (asValues two n.1 n.2 out)

/-- One grid of the inner loop of `merge` (grid.py 1206-1217). -/
def mergeStepF (xmin ymin dx dy garb : ℚ) (iband : Nat) (st : Arr ℚ × Arr ℚ) (gw : RGrid ℚ × ℚ) :
    Except Err (Arr ℚ × Arr ℚ) :=
  let ext := extentF R gw.1.t gw.1.size.1 gw.1.size.2 false
  let offx := trunc (R.fl (R.fl (ext.1 - xmin) / dx))
  let offy := trunc (R.fl (R.fl (ext.2.2.1 - ymin) / dy))
  match gw.1.dataMask garb with
  | .error e => .error e
  | .ok mask =>
    match addMasked st.1 offy offx mask (fun _ _ => gw.2) with
    | .error e => .error e
    | .ok counts =>
      match gw.1.bands[iband]? with
      | none => .error .indexError
      | some b =>
        match b.getblock 0 0 b.ny b.nx with
        | .error e => .error e
        | .ok blk =>
          match addMasked st.2 offy offx mask (fun r c => (blk.get r c).getD garb * gw.2) with
          | .error e => .error e
          | .ok values => .ok (counts, values)

/-- The loop over the grids (grid.py 1206-1217). -/
def mergeLoopF (xmin ymin dx dy garb : ℚ) (iband : Nat) :
    List (RGrid ℚ × ℚ) → Arr ℚ × Arr ℚ → Except Err (Arr ℚ × Arr ℚ)
  | [], st => .ok st
  | gw :: rest, st =>
    match mergeStepF R xmin ymin dx dy garb iband st gw with
    | .error e => .error e
    | .ok st' => mergeLoopF xmin ymin dx dy garb iband rest st'

/-- One output band (grid.py 1202-1226). -/
def mergeBandF (xmin ymin dx dy garb nodata : ℚ) (ny nx : Nat) (gws : List (RGrid ℚ × ℚ)) (iband : Nat) :
    Except Err (CBand ℚ) :=
  match mergeLoopF R xmin ymin dx dy garb iband gws (⟨ny, nx, fun _ _ => 0⟩, ⟨ny, nx, fun _ _ => 0⟩) with
  | .error e => .error e
  | .ok (counts, values) =>
    match (CBand.new ny nx 256 256 nodata).setblock 0 0 ⟨ny, nx, fun r c =>
        if counts.get r c ≠ 0 then values.get r c / counts.get r c else nodata⟩ with
    | (b, none) => .ok b
    | (_, some e) => .error e

/-- Whether the offset of a grid passes the test of grid.py 1172-1176. -/
def offsetOkF (T U : Xform) : Bool :=
  decide (mod1F R (R.fl (R.fl (U.x0 - T.x0) / T.dx)) ≤ R.fl (1 / 10 ^ 15)) &&
  decide (mod1F R (R.fl (R.fl (U.y0 - T.y0) / T.dy)) ≤ R.fl (1 / 10 ^ 15))

/-- Union of the extents (grid.py 1191-1197). -/
def unionExtentF (g0 : RGrid ℚ) (rest : List (RGrid ℚ)) : ℚ × ℚ × ℚ × ℚ :=
  rest.foldl (fun a g =>
      let e := extentF R g.t g.size.1 g.size.2 false
      (min a.1 e.1, max a.2.1 e.2.1, min a.2.2.1 e.2.2.1, max a.2.2.2 e.2.2.2))
    (extentF R g0.t g0.size.1 g0.size.2 false)

/-- `merge` (grid.py 1141-1231). -/
def mergeF (garb : ℚ) (gs : List (RGrid ℚ)) (weights : Option (List ℚ)) : Except Err (RGrid ℚ) :=
  match gs with
  | [] => .error .indexError
  | g0 :: rest =>
    let T := g0.t
    if ¬ rest.all (fun g => decide (g.t.dx = T.dx ∧ g.t.dy = T.dy ∧ g.t.sx = T.sx ∧ g.t.sy = T.sy)) then
      .error .other
    else if T.dx = 0 ∨ T.dy = 0 then .error .zeroDivision
    else if ¬ rest.all (fun g => offsetOkF R T g.t) then .error .valueError
    else if ¬ rest.all (fun g => g.bands.length == g0.bands.length) then .error .valueError
    else
      let nw := normWeights gs.length weights
      let e := unionExtentF R g0 rest
      let nx := rint (R.fl (R.fl (e.2.1 - e.1) / T.dx))
      let ny := rint (R.fl (R.fl (e.2.2.2 - e.2.2.1) / T.dy))
      if nx < 0 ∨ ny < 0 then .error .valueError
      else
        match (List.range g0.bands.length).mapM
            (mergeBandF R e.1 e.2.2.1 T.dx T.dy garb g0.nodata ny.toNat nx.toNat (gs.zip nw)) with
        | .error er => .error er
        | .ok bs => .ok ⟨{ T with x0 := e.1, y0 := e.2.2.1 }, bs, g0.nodata⟩

/-- `indices` for a vector of points (grid.py 816-822). -/
def indicesVecF (T : Xform) (ny nx : Nat) (pts : List (ℚ × ℚ)) : Option (Except Err (List (Int × Int))) :=
  (pts.mapM fun p => indicesRawF R T p.1 p.2).map fun ps =>
    match ps with
    | [] => .error .valueError
    | q :: qs =>
      if (qs.map Prod.fst).foldl min q.1 < 0 ∨ (qs.map Prod.fst).foldl max q.1 > (ny : Int) - 1 ∨
         (qs.map Prod.snd).foldl min q.2 < 0 ∨ (qs.map Prod.snd).foldl max q.2 > (nx : Int) - 1
      then .error .indexError else .ok ps

/-- `gridpoints` (grid.py 1259-1302). -/
def gridpointsF (garb : Option ℚ) (T : Xform) (pts : List (ℚ × ℚ × ℚ)) : Option (Except Err (RGrid (Option ℚ))) :=
  match pts with
  | [] => some (.error .valueError)
  | p :: ps =>
    if T.dx = 0 ∨ T.dy = 0 then none
    else
      let ny := ⌊R.fl ((ps.map fun q => q.2.1).foldl max p.2.1 - T.y0) / T.dy⌋ + 1
      let nx := ⌊R.fl ((ps.map fun q => q.1).foldl max p.1 - T.x0) / T.dx⌋ + 1
      if ny < 0 ∨ nx < 0 then some (.error .valueError)
      else
        match indicesVecF R T ny.toNat nx.toNat (pts.map fun q => (q.1, q.2.1)) with
        | none => none
        | some (.error e) => some (.error e)
        | some (.ok ix) =>
          match mkBand (some 0) ⟨ny.toNat, nx.toNat, fun _ _ => garb⟩ with
          | .error e => some (.error e)
          | .ok b =>
            let arr := fillArray ny.toNat nx.toNat (ix.zip (pts.map fun q => q.2.2))
            match Indexer.setitem [b] (.slice .all) (.slice .all) (some (.int 0))
                (arrValue arr) with
            | (_, some e) => some (.error e)
            | (bs, none) => some (.ok ⟨T, bs, none⟩)

end Karta.Float
