import Verif.Grid.Window

/-!
Model of `mask_poly` and `RegularGrid.mask_by_poly` (karta/raster/grid.py 619-668, 1304-1384).
-/

namespace Karta.Grid
open Karta Karta.Band Karta.Py

/-- The starting vertex of `mask_poly` (grid.py 1324-1331): index of the lowest, then leftmost vertex.
`k` is the position of the first vertex of `rest`. -/
def lowest : List (ℚ × ℚ) → Nat → ℚ × ℚ → Nat → Nat
  | [], _, _, best => best
  | p :: rest, k, b, best =>
    if p.2 < b.2 ∨ (p.2 = b.2 ∧ p.1 < b.1) then lowest rest (k + 1) p k else lowest rest (k + 1) b best

/-- The transform with positive spacings (grid.py 1337-1346). -/
def northUp (T : Xform) (ny nx : Nat) : Xform :=
  { T with x0 := if T.dx < 0 then T.x0 + nx * T.dx else T.x0, dx := if T.dx < 0 then -T.dx else T.dx,
           y0 := if T.dy < 0 then T.y0 + ny * T.dy else T.y0, dy := if T.dy < 0 then -T.dy else T.dy }

/-- Grid indices of a vertex (grid.py 1348-1349, 1357-1358). -/
def vertexIdx (T : Xform) (p : ℚ × ℚ) : Int × Int :=
  (rint ((p.2 - T.y0 - T.sy / T.dx * (p.1 - T.x0)) / (T.dy - T.sy * T.sx / T.dx)),
   rint ((p.1 - T.x0 - T.sx / T.dy * (p.2 - T.y0)) / (T.dx - T.sx * T.sy / T.dy)))

/-- `mask[i, max(0, j):] += d` unless `j ≥ nx` (grid.py 1369-1370, 1378-1379). -/
def markRow (nx : Nat) (i j d : Int) (mask : Int → Int → Int) : Int → Int → Int :=
  if j < nx then fun r c => if r = i ∧ max 0 j ≤ c then mask r c + d else mask r c else mask

/-- Rows of one segment (grid.py 1366-1370, 1374-1379): `ib, jb` are the indices of its lower end. -/
def markRows (ny nx : Nat) (slope : ℚ) (ib jb d : Int) (rows : List Int) (mask : Int → Int → Int) :
    Int → Int → Int :=
  rows.foldl (fun m (i : Int) => if 0 ≤ i ∧ i < ny then markRow nx i (rint (((i - ib : Int) : ℚ) * slope + jb)) d m else m) mask

/-- One segment (grid.py 1360-1379).  A horizontal segment reaches the division by `y1 - y0` only if its
end points differ in row, which needs a skewed grid; the exception raised then is modelled as
`ZeroDivisionError`.  `(i-i0) * (x1-x0)/(y1-y0)` is regrouped as `(i-i0) * ((x1-x0)/(y1-y0))`. -/
def markSegment (T : Xform) (ny nx : Nat) (p0 p1 : ℚ × ℚ) (mask : Int → Int → Int) :
    Except Err (Int → Int → Int) :=
  let q0 := vertexIdx T p0
  let q1 := vertexIdx T p1
  if ((0 ≤ q0.1 ∧ q0.1 < ny) ∧ (0 ≤ q1.1 ∧ q1.1 < ny)) ∨ p1.2 ≠ p0.2 then
    let slope := (p1.1 - p0.1) / (p1.2 - p0.2)
    if p1.2 > p0.2 then .ok (markRows ny nx slope q0.1 q0.2 1 (range1 q0.1 q1.1) mask)
    else if p1.2 = p0.2 ∧ q1.1 < q0.1 then .error .zeroDivision
    else .ok (markRows ny nx slope q1.1 q1.2 (-1) (range1 q1.1 q0.1) mask)
  else .ok mask

/-- The loop over the segments (grid.py 1351-1384), from the vertex `p0` along `ps`. -/
def maskLoop (T : Xform) (ny nx : Nat) : ℚ × ℚ → List (ℚ × ℚ) → (Int → Int → Int) → Except Err (Int → Int → Int)
  | _, [], m => .ok m
  | p0, p1 :: ps, m =>
    match markSegment T ny nx p0 p1 m with
    | .error e => .error e
    | .ok m' => maskLoop T ny nx p1 ps m'

/-- `mask_poly` (grid.py 1304-1384).  The counters are 8-bit integers, so the result is whether they are
non-zero modulo 256. -/
def maskPoly (T : Xform) (ny nx : Nat) (pts : List (ℚ × ℚ)) : Except Err (Arr Bool) :=
  match pts with
  | [] => .error .indexError
  | p :: ps =>
    let b := lowest ps 1 p 0
    let U := northUp T ny nx
    if U.dx = 0 ∨ U.dy = 0 ∨ U.dx * U.dy - U.sx * U.sy = 0 then .error .zeroDivision
    else
      let at_ := fun k => (pts[k % pts.length]?).getD (0, 0)
      match maskLoop U ny nx (at_ b) ((List.range pts.length).map fun e => at_ (e + 1 + b)) (fun _ _ => 0) with
      | .error e => .error e
      | .ok m => .ok ⟨ny, nx, fun r c => decide (m r c % 256 ≠ 0)⟩

/-- The union of the masks of the polygons in `mask_by_poly` (grid.py 643-655), each given by the vertex
list of its outer ring in the orientation that is passed on. -/
def unionMask (T : Xform) (ny nx : Nat) : List (List (ℚ × ℚ)) → Arr Bool → Except Err (Arr Bool)
  | [], m => .ok m
  | p :: ps, m =>
    match maskPoly T ny nx p with
    | .error e => .error e
    | .ok m' => unionMask T ny nx ps ⟨ny, nx, fun r c => m.get r c || m'.get r c⟩

/-- `np.where(msk, self[:,:,:], nodata)` (grid.py 663-667). -/
def whereMask {α : Type _} (m : Arr Bool) (A : NdArr (Option α)) (nodata : α) : NdArr (Option α) :=
  ⟨A.shape, fun
    | [r, c, k] => if m.get r c then A.get [r, c, k] else some nodata
    | _ => none⟩

/-- `mask_by_poly(polys, inplace=False)` (grid.py 619-668). -/
def RGrid.maskByPoly {α : Type _} (zero garb : α) (g : RGrid α) (polys : List (List (ℚ × ℚ))) : Except Err (RGrid α) :=
  match unionMask g.t g.size.1 g.size.2 polys ⟨g.size.1, g.size.2, fun _ _ => false⟩ with
  | .error e => .error e
  | .ok m =>
    match Indexer.getitem g.bands (.slice .all) (.slice .all) (some (.slice .all)) with
    | .error e => .error e
    | .ok A => fromValues zero garb g.t g.nodata (whereMask m A g.nodata)

end Karta.Grid
