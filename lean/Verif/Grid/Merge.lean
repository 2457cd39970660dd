import Verif.Grid.Sample

/-!
Model of `merge` and `gridpoints` (karta/raster/grid.py 1141-1302 and karta/raster/crfuncs.pyx 159-195)
for floating-point pixels, as exact rationals.
-/

namespace Karta.Grid
open Karta Karta.Band

/-- `acc[oy:oy+h, ox:ox+w][mask] += f` for an `h × w` mask.  Simplification: an offset before the first
row or column is reported as `IndexError`, like a window that does not fit. -/
def addMasked (acc : Arr ℚ) (oy ox : Int) (mask : Arr Bool) (f : Nat → Nat → ℚ) : Except Err (Arr ℚ) :=
  if 0 ≤ oy ∧ 0 ≤ ox ∧ oy + mask.ny ≤ acc.ny ∧ ox + mask.nx ≤ acc.nx then
    .ok ⟨acc.ny, acc.nx, fun r c =>
      if oy ≤ r ∧ (r : Int) < oy + mask.ny ∧ ox ≤ c ∧ (c : Int) < ox + mask.nx ∧
          mask.get (r - oy).toNat (c - ox).toNat = true
      then acc.get r c + f (r - oy).toNat (c - ox).toNat else acc.get r c⟩
  else .error .indexError

/-- One grid of the inner loop of `merge` (grid.py 1206-1217): counts and values are updated. -/
def mergeStep (xmin ymin dx dy garb : ℚ) (iband : Nat) (st : Arr ℚ × Arr ℚ) (gw : RGrid ℚ × ℚ) :
    Except Err (Arr ℚ × Arr ℚ) :=
  let ext := extent gw.1.t gw.1.size.1 gw.1.size.2 false
  let offx := trunc ((ext.1 - xmin) / dx)
  let offy := trunc ((ext.2.2.1 - ymin) / dy)
  match gw.1.dataMask garb with
  | .error e => .error e
  | .ok mask =>
    match addMasked st.1 offy offx mask (fun _ _ => gw.2) with
    | .error e => .error e
    | .ok counts =>
      match gw.1.bands[iband]? with
      | none => .error .indexError
      | some b =>
        match b.getblock 0 0 b.ny b.nx with
        | .error e => .error e
        | .ok blk =>
          match addMasked st.2 offy offx mask (fun r c => (blk.get r c).getD garb * gw.2) with
          | .error e => .error e
          | .ok values => .ok (counts, values)

/-- The loop over the grids (grid.py 1206-1217). -/
def mergeLoop (xmin ymin dx dy garb : ℚ) (iband : Nat) :
    List (RGrid ℚ × ℚ) → Arr ℚ × Arr ℚ → Except Err (Arr ℚ × Arr ℚ)
  | [], st => .ok st
  | gw :: rest, st =>
    match mergeStep xmin ymin dx dy garb iband st gw with
    | .error e => .error e
    | .ok st' => mergeLoop xmin ymin dx dy garb iband rest st'

/-- One output band (grid.py 1202-1226). -/
def mergeBand (xmin ymin dx dy garb nodata : ℚ) (ny nx : Nat) (gws : List (RGrid ℚ × ℚ)) (iband : Nat) :
    Except Err (CBand ℚ) :=
  match mergeLoop xmin ymin dx dy garb iband gws (⟨ny, nx, fun _ _ => 0⟩, ⟨ny, nx, fun _ _ => 0⟩) with
  | .error e => .error e
  | .ok (counts, values) =>
    match (CBand.new ny nx 256 256 nodata).setblock 0 0 ⟨ny, nx, fun r c =>
        if counts.get r c ≠ 0 then values.get r c / counts.get r c else nodata⟩ with
    | (b, none) => .ok b
    | (_, some e) => .error e

/-- Whether the offset of a grid passes the test of grid.py 1172-1176. -/
def offsetOk (T U : Xform) : Bool :=
  decide (Int.fract ((U.x0 - T.x0) / T.dx) ≤ 1 / 10 ^ 15) && decide (Int.fract ((U.y0 - T.y0) / T.dy) ≤ 1 / 10 ^ 15)

/-- Normalised weights (grid.py 1183-1188).  Simplifications: weights are not rounded to 32 bits, and a
zero sum, for which numpy yields NaN, gives zero weights. -/
def normWeights (n : Nat) : Option (List ℚ) → List ℚ
  | none => (List.replicate n (1 : ℚ)).map fun w => w * n / (n : ℚ)
  | some ws => ws.map fun w => w * (ws.length : ℚ) / ws.sum

/-- Union of the extents (grid.py 1191-1197): `(xmin, xmax, ymin, ymax)`. -/
def unionExtent (g0 : RGrid ℚ) (rest : List (RGrid ℚ)) : ℚ × ℚ × ℚ × ℚ :=
  rest.foldl (fun a g =>
      let e := extent g.t g.size.1 g.size.2 false
      (min a.1 e.1, max a.2.1 e.2.1, min a.2.2.1 e.2.2.1, max a.2.2.2 e.2.2.2))
    (extent g0.t g0.size.1 g0.size.2 false)

/-- `merge` (grid.py 1141-1231).  A zero spacing raises in the offset test; `GridError` is `other`. -/
def merge (garb : ℚ) (gs : List (RGrid ℚ)) (weights : Option (List ℚ)) : Except Err (RGrid ℚ) :=
  match gs with
  | [] => .error .indexError
  | g0 :: rest =>
    let T := g0.t
    if ¬ rest.all (fun g => decide (g.t.dx = T.dx ∧ g.t.dy = T.dy ∧ g.t.sx = T.sx ∧ g.t.sy = T.sy)) then
      .error .other
    else if T.dx = 0 ∨ T.dy = 0 then .error .zeroDivision
    else if ¬ rest.all (fun g => offsetOk T g.t) then .error .valueError
    else if ¬ rest.all (fun g => g.bands.length == g0.bands.length) then .error .valueError
    else
      let nw := normWeights gs.length weights
      let e := unionExtent g0 rest
      let nx := rint ((e.2.1 - e.1) / T.dx)
      let ny := rint ((e.2.2.2 - e.2.2.1) / T.dy)
      if nx < 0 ∨ ny < 0 then .error .valueError
      else
        match (List.range g0.bands.length).mapM
            (mergeBand e.1 e.2.2.1 T.dx T.dy garb g0.nodata ny.toNat nx.toNat (gs.zip nw)) with
        | .error er => .error er
        | .ok bs => .ok ⟨{ T with x0 := e.1, y0 := e.2.2.1 }, bs, g0.nodata⟩

/-- Accumulation in `fillarray_double` (crfuncs.pyx 179-184) and in the Python fallback
(grid.py 1292-1294). -/
def fillStep (st : (Nat → Nat → ℚ) × (Nat → Nat → Nat)) (p : (Int × Int) × ℚ) :
    (Nat → Nat → ℚ) × (Nat → Nat → Nat) :=
  (fun r c => if (r : Int) = p.1.1 ∧ (c : Int) = p.1.2 then st.1 r c + p.2 else st.1 r c,
   fun r c => if (r : Int) = p.1.1 ∧ (c : Int) = p.1.2 then st.2 r c + 1 else st.2 r c)

/-- `fillarray_double` (crfuncs.pyx 159-195) on a zero array.  `none` is NaN. -/
def fillArray (ny nx : Nat) (ps : List ((Int × Int) × ℚ)) : Arr (Option ℚ) :=
  let st := ps.foldl fillStep (fun _ _ => 0, fun _ _ => 0)
  ⟨ny, nx, fun r c => if st.2 r c ≠ 0 then some (st.1 r c / (st.2 r c : ℚ)) else none⟩

/-- A two-dimensional array as assigned to `grid[:,:,0]`. -/
def arrValue (a : Arr (Option ℚ)) : Indexer.Value (Option ℚ) :=
  ⟨true, ⟨[a.ny, a.nx], fun
    | [r, c] => a.get r c
    | _ => none⟩⟩

/-- `gridpoints` (grid.py 1259-1302) for points `(x, y, z)`; pixels are `none` (NaN) or a rational.
`np.max` of an empty list raises `ValueError`; so does a grid with a negative number of rows or
columns.  The outer `Option` is `none` where positions are undefined. -/
def gridpoints (garb : Option ℚ) (T : Xform) (pts : List (ℚ × ℚ × ℚ)) : Option (Except Err (RGrid (Option ℚ))) :=
  match pts with
  | [] => some (.error .valueError)
  | p :: ps =>
    if T.dx = 0 ∨ T.dy = 0 then none
    else
      let ny := ⌊((ps.map fun q => q.2.1).foldl max p.2.1 - T.y0) / T.dy⌋ + 1
      let nx := ⌊((ps.map fun q => q.1).foldl max p.1 - T.x0) / T.dx⌋ + 1
      if ny < 0 ∨ nx < 0 then some (.error .valueError)
      else
        match indicesVec T ny.toNat nx.toNat (pts.map fun q => (q.1, q.2.1)) with
        | none => none
        | some (.error e) => some (.error e)
        | some (.ok ix) =>
          match mkBand (some 0) ⟨ny.toNat, nx.toNat, fun _ _ => garb⟩ with
          | .error e => some (.error e)
          | .ok b =>
            let arr := fillArray ny.toNat nx.toNat (ix.zip (pts.map fun q => q.2.2))
            match Indexer.setitem [b] (.slice .all) (.slice .all) (some (.int 0))
                (arrValue arr) with
            | (_, some e) => some (.error e)
            | (bs, none) => some (.ok ⟨T, bs, none⟩)

end Karta.Grid
