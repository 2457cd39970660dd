import Verif.Grid.Window

/-!
Model of point sampling (karta/raster/grid.py 830-969 and karta/raster/crfuncs.pyx 35-157).

Positions and pixel values are exact rationals (integers for the integer kernels).  Coordinate arrays
are one-dimensional lists of points; a two-dimensional array is raveled by the code and the result
reshaped.  The outer `Option` is `none` where positions are undefined.
-/

namespace Karta.Grid
open Karta Karta.Band

variable {α β : Type _}

/-- Choice of the two neighbouring indices in the kernels (crfuncs.pyx 51-69, 94-109, 134-149). -/
def bracket (i : ℚ) : Int × Int :=
  if i ≠ (⌊i⌋ : ℚ) then (⌊i⌋, ⌊i⌋ + 1)
  else if i ≠ 0 then (⌊i⌋ - 1, ⌊i⌋)
  else (⌊i⌋, ⌊i⌋ + 1)

/-- The weighted sum of the kernels (crfuncs.pyx 72-75, 111-114, 152-153). -/
def weighted (Z : Int → Int → ℚ) (i j : ℚ) : ℚ :=
  let a := bracket i
  let b := bracket j
  Z a.1 b.1 * ((a.2 : ℚ) - i) * ((b.2 : ℚ) - j) + Z a.2 b.1 * (i - (a.1 : ℚ)) * ((b.2 : ℚ) - j) +
  Z a.1 b.2 * ((a.2 : ℚ) - i) * (j - (b.1 : ℚ)) + Z a.2 b.2 * (i - (a.1 : ℚ)) * (j - (b.1 : ℚ))

/-- The four neighbours lie in an `m × n` array (crfuncs.pyx 71 and 151). -/
def bracketsInside (m n : Nat) (i j : ℚ) : Bool :=
  decide ((bracket i).1 ≥ 0 ∧ (bracket i).2 < m ∧ (bracket j).1 ≥ 0 ∧ (bracket j).2 < n)

/-- Conversion of a C double to an integer: truncation. -/
def trunc (q : ℚ) : Int := if 0 ≤ q then ⌊q⌋ else ⌈q⌉

/-- `sample_bilinear_double` for one point (crfuncs.pyx 118-157). -/
def kernelDouble (na : ℚ) (Z : Arr ℚ) (i j : ℚ) : Except Err ℚ :=
  if bracketsInside Z.ny Z.nx i j then .ok (weighted (fun r c => Z.get r.toNat c.toNat) i j)
  else .ok na

/-- `sample_bilinear_uint` for one point (crfuncs.pyx 35-76).  Simplification: values fit 16 bits. -/
def kernelUint (na : Int) (Z : Arr Int) (i j : ℚ) : Except Err Int :=
  if bracketsInside Z.ny Z.nx i j then .ok (trunc (weighted (fun r c => (Z.get r.toNat c.toNat : ℚ)) i j))
  else .ok na

/-- Indexing a typed memoryview with wraparound and bounds checking, the Cython defaults. -/
def wrapIndex (n : Nat) (i : Int) : Except Err Nat :=
  if 0 ≤ i ∧ i < n then .ok i.toNat
  else if i < 0 ∧ 0 ≤ i + n then .ok (i + n).toNat
  else .error .indexError

/-- `sample_bilinear_int` for one point (crfuncs.pyx 78-116): there is no test of the indices.
Simplification: values fit 32 bits. -/
def kernelInt (Z : Arr Int) (i j : ℚ) : Except Err Int :=
  match wrapIndex Z.ny (bracket i).1, wrapIndex Z.ny (bracket i).2,
        wrapIndex Z.nx (bracket j).1, wrapIndex Z.nx (bracket j).2 with
  | .ok i0, .ok i1, .ok j0, .ok j1 =>
    .ok (trunc (weighted (fun r c => (Z.get (if r = (bracket i).1 then i0 else i1)
      (if c = (bracket j).1 then j0 else j1) : ℚ)) i j))
  | _, _, _, _ => .error .indexError

/-- `min` and `max` of a non-empty vector. -/
def vmin (q : ℚ) (qs : List ℚ) : ℚ := qs.foldl min q
def vmax (q : ℚ) (qs : List ℚ) : ℚ := qs.foldl max q

/-- First and one-past-last index of the window read along an axis of length `n`
(grid.py 928-936). -/
def windowBounds (n : Nat) (q : ℚ) (qs : List ℚ) : Int × Int :=
  (max (⌊vmin q qs⌋ - 1) 0, min ⌈vmax q qs + 1⌉ n)

/-- One band of `sample_bilinear` (grid.py 950-961): read the window, `squeeze()` it and run the
kernel.  After `squeeze` a window with a single row or column is no longer two-dimensional and the
typed argument is refused with `ValueError`. -/
def sampleBand (kern : Arr α → ℚ → ℚ → Except Err β) (garb : α) (bands : List (CBand α)) (ky kx : Key)
    (ps : List (ℚ × ℚ)) (k : Nat) : Except Err (List β) :=
  match Indexer.getitem bands ky kx (some (.int k)) with
  | .error e => .error e
  | .ok A => match A.shape with
    | [m, n] => if m = 1 ∨ n = 1 then .error .valueError
        else ps.mapM fun p => kern ⟨m, n, fun r c => (A.get [r, c]).getD garb⟩ p.1 p.2
    | _ => .error .valueError

/-- `sample_bilinear` after the positions are known (grid.py 924-969), one list per band. -/
def sampleAt (kern : Arr α → ℚ → ℚ → Except Err β) (garb : α) (g : RGrid α) (ps : List (ℚ × ℚ)) :
    Except Err (List (List β)) :=
  match ps with
  | [] => .error .valueError
  | [p] => (List.range g.bands.length).mapM (sampleBand kern garb g.bands (.slice .all) (.slice .all) [p])
  | p :: q :: rest =>
    let wi := windowBounds g.size.1 p.1 ((q :: rest).map Prod.fst)
    let wj := windowBounds g.size.2 p.2 ((q :: rest).map Prod.snd)
    (List.range g.bands.length).mapM (sampleBand kern garb g.bands (sl wi.1 wi.2) (sl wj.1 wj.2)
      ((p :: q :: rest).map fun r => (r.1 - (wi.1 : ℚ), r.2 - (wj.1 : ℚ))))

/-- `sample_bilinear` for a list of points (grid.py 894-969). -/
def RGrid.sampleBilinear (kern : Arr α → ℚ → ℚ → Except Err β) (garb : α) (g : RGrid α)
    (pts : List (ℚ × ℚ)) : Option (Except Err (List (List β))) :=
  (pts.mapM fun p => positions g.t p.1 p.2).map (sampleAt kern garb g)

/-- What `sample_nearest` returns for a scalar point: an array of band values or the bare nodata
value. -/
inductive Nearest (α : Type _) where
  | values (v : List α)
  | nodata (v : α)

/-- `sample_nearest` for a scalar point (grid.py 852-859). -/
def RGrid.sampleNearest1 (garb : α) (g : RGrid α) (x y : ℚ) : Option (Except Err (Nearest α)) :=
  (indicesRaw g.t x y).map fun (p : Int × Int) =>
    if 0 ≤ p.1 ∧ p.1 < g.size.1 ∧ 0 ≤ p.2 ∧ p.2 < g.size.2 then
      match Indexer.getitem g.bands (.int p.1) (.int p.2) none with
      | .error e => .error e
      | .ok A => .ok (.values ((List.range g.bands.length).map fun k => (A.get [k]).getD garb))
    else .ok (.nodata g.nodata)

/-- `sample_nearest` for the list of indices of the query points (grid.py 866-892): a table with one row
per point and one column per band is filled, then reshaped, in row-major order, to one row per band. -/
def nearestAt (garb : α) (g : RGrid α) (ix : List (Int × Int)) : Except Err (List (List α)) :=
  let inside := fun p : Int × Int => decide (0 ≤ p.1 ∧ p.1 < g.size.1 ∧ 0 ≤ p.2 ∧ p.2 < g.size.2)
  match ix.filter inside with
  | [] => .error .valueError
  | p :: ps =>
    let imn := max ((ps.map Prod.fst).foldl min p.1 - 1) 0
    let imx := min ((ps.map Prod.fst).foldl max p.1 + 1) g.size.1
    let jmn := max ((ps.map Prod.snd).foldl min p.2 - 1) 0
    let jmx := min ((ps.map Prod.snd).foldl max p.2 + 1) g.size.2
    match Indexer.getitem g.bands (sl imn imx) (sl jmn jmx) (some (.slice .all)) with
    | .error e => .error e
    | .ok A =>
      let nb := g.bands.length
      let data : List α := ix.flatMap fun q => (List.range nb).map fun k =>
        if inside q then (A.get [(q.1 - imn).toNat, (q.2 - jmn).toNat, k]).getD garb else g.nodata
      .ok ((List.range nb).map fun k => (List.range ix.length).map fun t =>
        (data[k * ix.length + t]?).getD garb)

/-- `sample_nearest` for a list of points (grid.py 861-892). -/
def RGrid.sampleNearest (garb : α) (g : RGrid α) (pts : List (ℚ × ℚ)) : Option (Except Err (List (List α))) :=
  (pts.mapM fun p => indicesRaw g.t p.1 p.2).map (nearestAt garb g)

end Karta.Grid
