import Verif.Py
import Mathlib.Algebra.Field.Basic
import Mathlib.Analysis.SpecialFunctions.Complex.Arg
import Mathlib.Data.Real.Sqrt

/-!
Model of karta/raster/misc.py.  Pixels and coordinates are elements of a field (rational or real numbers): rounding, and
the cast to 32-bit floats, are not modelled.  `none` stands for NaN.  A band is represented by the array it reads back as
(that it does is the subject of C01-C08).  A zero cell size, for which numpy divides by zero, is excluded in the theorems.
-/

namespace Karta.Surface
open Karta

variable {K : Type _}

/-- The parts of a `RegularGrid` used here: transform, bands and nodata value (grid.py 114-194, 326-332). -/
structure FGrid (K : Type _) where
  x0 : K
  y0 : K
  dx : K
  dy : K
  sx : K
  sy : K
  bands : List (Arr (Option K))
  nodata : Option K

/-- Apply a binary operation to two numbers, either of which may be NaN. -/
def lift2 (f : K → K → K) : Option K → Option K → Option K
  | some a, some b => some (f a b)
  | _, _ => none

/-- Elementwise operation on arrays of one shape. -/
def zip (f : K → K → K) (A B : Arr (Option K)) : Arr (Option K) := ⟨A.ny, A.nx, fun i j => lift2 f (A.get i j) (B.get i j)⟩

/-- Elementwise operation with a number. -/
def mapA (f : K → K) (A : Arr (Option K)) : Arr (Option K) := A.map (Option.map f)

/-- The slices `D[r:r-2, c:c-2]` for `r`, `c` in 0, 1, 2, where a missing or zero end means the whole (misc.py 13-16). -/
def win (D : Arr (Option K)) (r c : Nat) : Arr (Option K) :=
  D.slice (r : Int) (D.ny - 2 + r) (c : Int) (D.nx - 2 + c)

/-- `np.pad(A, ((1, 1), (1, 1)), "constant", constant_values=(np.nan,))`. -/
def padNaN (A : Arr (Option K)) : Arr (Option K) :=
  ⟨A.ny + 2, A.nx + 2, fun i j => if 1 ≤ i ∧ i ≤ A.ny ∧ 1 ≤ j ∧ j ≤ A.nx then A.get (i - 1) (j - 1) else none⟩

section Field
variable [Field K]

/-- `Ddx` (misc.py 13-14, 48-49, 76-77, 143-144). -/
def ddx (D : Arr (Option K)) (dx : K) : Arr (Option K) :=
  mapA (· / (8 * dx))
    (zip (· - ·) (zip (· + ·) (zip (· + ·) (mapA (2 * ·) (win D 1 2)) (win D 0 2)) (win D 2 2))
      (zip (· + ·) (zip (· + ·) (mapA (2 * ·) (win D 1 0)) (win D 0 0)) (win D 2 0)))

/-- `Ddy` (misc.py 15-16, 50-51, 78-79, 145-146). -/
def ddy (D : Arr (Option K)) (dy : K) : Arr (Option K) :=
  mapA (· / (8 * dy))
    (zip (· - ·) (zip (· + ·) (zip (· + ·) (mapA (2 * ·) (win D 2 1)) (win D 2 2)) (win D 2 0))
      (zip (· + ·) (zip (· + ·) (mapA (2 * ·) (win D 0 1)) (win D 0 0)) (win D 0 2)))

/-- `_grad` (misc.py 73-81). -/
def grad (D : Arr (Option K)) (dx dy : K) : Arr (Option K) × Arr (Option K) := (padNaN (ddx D dx), padNaN (ddy D dy))

/-- One axis of `np.pad(…, "reflect", reflect_type="odd")` by one: position `i` of the padded axis of original length `n`.
An axis of length one is extended by its only value. -/
def oddReflect (n : Nat) (get : Nat → Option K) (i : Nat) : Option K :=
  if i = 0 then (if n = 1 then get 0 else lift2 (fun a b => 2 * a - b) (get 0) (get 1))
  else if i = n + 1 then (if n = 1 then get 0 else lift2 (fun a b => 2 * a - b) (get (n - 1)) (get (n - 2)))
  else get (i - 1)

/-- `np.pad(A, ((1, 1), (1, 1)), "reflect", reflect_type="odd")`: rows first, then columns; an empty axis raises. -/
def padOdd (A : Arr (Option K)) : Except Err (Arr (Option K)) :=
  if A.ny = 0 ∨ A.nx = 0 then .error .valueError
  else .ok ⟨A.ny + 2, A.nx + 2, fun i j => oddReflect A.nx (fun c => oddReflect A.ny (fun r => A.get r c) i) j⟩

/-- Sum of two arrays with numpy broadcasting. -/
def addB (A B : Arr (Option K)) : Except Err (Arr (Option K)) :=
  if (A.ny = B.ny ∨ A.ny = 1 ∨ B.ny = 1) ∧ (A.nx = B.nx ∨ A.nx = 1 ∨ B.nx = 1) then
    .ok ⟨if A.ny = 1 then B.ny else A.ny, if A.nx = 1 then B.nx else A.nx, fun i j =>
      lift2 (· + ·) (A.get (if A.ny = 1 then 0 else i) (if A.nx = 1 then 0 else j))
        (B.get (if B.ny = 1 then 0 else i) (if B.nx = 1 then 0 else j))⟩
  else .error .valueError

/-- `np.pad(A, ((0, 0), (1, 1)), …)` with NaN. -/
def padCols (A : Arr (Option K)) : Arr (Option K) :=
  ⟨A.ny, A.nx + 2, fun i j => if 1 ≤ j ∧ j ≤ A.nx then A.get i (j - 1) else none⟩

/-- `np.pad(A, ((1, 1), (0, 0)), …)` with NaN. -/
def padRows (A : Arr (Option K)) : Arr (Option K) :=
  ⟨A.ny + 2, A.nx, fun i j => if 1 ≤ i ∧ i ≤ A.ny then A.get (i - 1) j else none⟩

/-- `_div` (misc.py 104-110). -/
def div (U V : Arr (Option K)) (dx dy : K) : Except Err (Arr (Option K)) :=
  addB
    (padCols (mapA (· / (2 * dx)) (zip (· - ·) (U.slice 0 U.ny 2 U.nx) (U.slice 0 U.ny 0 (U.nx - 2)))))
    (padRows (mapA (· / (2 * dy)) (zip (· - ·) (V.slice 2 V.ny 0 V.nx) (V.slice 0 (V.ny - 2) 0 V.nx))))

end Field

section Grid
variable [Field K] [DecidableEq K]

/-- `np.where(grid.data_mask, grid[:,:,band], np.nan)` (misc.py 38, 68, 97, 169; grid.py 465-477).  A NaN nodata value is
compared with `isnan`, any other with `!=`.  Simplification: band numbers are not negative. -/
def masked (g : FGrid K) (band : Nat) : Except Err (Arr (Option K)) :=
  match g.bands[band]? with
  | none => .error .indexError
  | some b => .ok ⟨b.ny, b.nx, fun i j => if g.bands.all (fun b' => decide (b'.get i j ≠ g.nodata)) then b.get i j else none⟩

/-- `RegularGrid(grid.transform, A, crs=grid.crs, nodata_value=np.nan)`. -/
def FGrid.with (g : FGrid K) (A : Arr (Option K)) : FGrid K := { g with bands := [A], nodata := none }

/-- `gradient` (misc.py 83-100). -/
def gradient (g : FGrid K) (band : Nat) : Except Err (FGrid K × FGrid K) :=
  if g.sx = 0 ∧ g.sy = 0 then
    match masked g band with
    | .error e => .error e
    | .ok D => .ok (g.with (grad D g.dx g.dy).1, g.with (grad D g.dx g.dy).2)
  else .error .notImplemented

/-- `divergence` (misc.py 112-132).  The data mask is not consulted. -/
def divergence (g : FGrid K) (b0 b1 : Nat) : Except Err (FGrid K) :=
  if g.sx = 0 ∧ g.sy = 0 then
    match g.bands[b0]?, g.bands[b1]? with
    | some U, some V =>
      match div U V g.dx g.dy with
      | .error e => .error e
      | .ok A => .ok (g.with A)
    | _, _ => .error .indexError
  else .error .notImplemented

end Grid

noncomputable section Real
open Classical

/-- `_slope` (misc.py 8-18). -/
def slopeArr (D : Arr (Option ℝ)) (dx dy : ℝ) : Except Err (Arr (Option ℝ)) :=
  padOdd (zip (fun a b => Real.sqrt (a * a + b * b)) (ddx D dx) (ddy D dy))

/-- `slope` (misc.py 20-40). -/
def slope (g : FGrid ℝ) (band : Nat) : Except Err (FGrid ℝ) :=
  if g.sx = 0 ∧ g.sy = 0 then
    match masked g band with
    | .error e => .error e
    | .ok D =>
      match slopeArr D g.dx g.dy with
      | .error e => .error e
      | .ok A => .ok (g.with A)
  else .error .notImplemented

/-- `np.arctan2(y, x)`. -/
def atan2 (y x : ℝ) : ℝ := Complex.arg ⟨x, y⟩

/-- `_aspect` (misc.py 42-52). -/
def aspectArr (D : Arr (Option ℝ)) (dx dy : ℝ) : Arr (Option ℝ) :=
  padNaN (zip (fun gy gx => atan2 gy (-gx)) (ddy D dy) (ddx D dx))

/-- `aspect` (misc.py 54-71). -/
def aspect (g : FGrid ℝ) (band : Nat) : Except Err (FGrid ℝ) :=
  if g.sx = 0 ∧ g.sy = 0 then
    match masked g band with
    | .error e => .error e
    | .ok D => .ok (g.with (aspectArr D g.dx g.dy))
  else .error .notImplemented

/-- All the numbers of an array that are not NaN. -/
def numbers (A : Arr (Option ℝ)) : List ℝ :=
  ((List.range A.ny).flatMap fun i => (List.range A.nx).map fun j => A.get i j).filterMap id

/-- Largest number of a list. -/
def maxL : List ℝ → Option ℝ
  | [] => none
  | x :: xs => some (xs.foldl max x)

/-- `_normed_potential_vectors` (misc.py 134-152).  The maximum of no numbers raises ValueError; a zero maximum gives
NaN. -/
def normed (D : Arr (Option ℝ)) (dx dy : ℝ) : Except Err (Arr (Option ℝ) × Arr (Option ℝ)) :=
  match maxL (numbers (zip (fun a b => Real.sqrt (a ^ 2 + b ^ 2)) (ddx D dx) (ddy D dy))) with
  | none => .error .valueError
  | some m =>
    .ok (padNaN ((ddx D dx).map fun v => if m = 0 then none else v.map (· / m)),
         padNaN ((ddy D dy).map fun v => if m = 0 then none else v.map (· / m)))

end Real

end Karta.Surface
