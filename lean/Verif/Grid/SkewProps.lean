import Verif.Grid.GridOpsProps
import Verif.Grid.MergeProps

/-!
Counterexamples on skewed grids and on grids of several bands to C13 (resizing), C14 (merging), C111 (resampling
at the own spacing), C112 (linear resampling) and C116 (aligning the origin).
-/

namespace Karta.Grid
open Karta

/-- Spec: what one sees of the first band: the centre and the value of every cell. -/
def RGrid.cells (g : RGrid ℚ) : List ((ℚ × ℚ) × Option ℚ) :=
  (List.range g.size.1).flatMap fun i => (List.range g.size.2).map fun j => (centerCoord g.t i j, g.peek i j)

/-- What one sees of a result, if there is one. -/
def shown : Except Err (RGrid ℚ) → Option (List ((ℚ × ℚ) × Option ℚ))
  | .ok g => some g.cells
  | .error _ => none

/-- A grid of one band whose cell in row `r` and column `c` holds `10 r + c`; nodata is `-9`. -/
def oneBand (T : Xform) (H W : Nat) : Except Err (RGrid ℚ) :=
  fromValues 0 0 T (-9) ⟨[H, W], fun
    | [r, c] => some (10 * (r : ℚ) + c)
    | _ => none⟩

/-- A grid of two bands whose cell in row `r` and column `c` of band `k` holds `100 k + 10 r + c`. -/
def twoBands (T : Xform) (H W : Nat) : Except Err (RGrid ℚ) :=
  fromValues 0 0 T (-9) ⟨[H, W, 2], fun
    | [r, c, k] => some (100 * (k : ℚ) + 10 * r + c)
    | _ => none⟩

/-- C13 is violated on skewed grids.  The cell with centre (2, 3/2) holds 10; after resizing to the box from
(0, 1) to (4, 2), which keeps the second row, the cell with this centre holds 11. -/
theorem C13_violated_skew :
    shown (oneBand ⟨0, 0, 1, 1, 1, 0⟩ 2 2) =
      some [((1, 1 / 2), some 0), ((2, 1 / 2), some 1), ((2, 3 / 2), some 10), ((3, 3 / 2), some 11)] ∧
    shown ((oneBand ⟨0, 0, 1, 1, 1, 0⟩ 2 2).bind fun g => g.resize 0 0 1 4 2) =
      some [((1, 3 / 2), some 10), ((2, 3 / 2), some 11), ((3, 3 / 2), some (-9)), ((4, 3 / 2), some (-9))] := by
  constructor <;> decide +kernel

/-- C14 is violated on skewed grids.  The second grid has its cell 0 at the centre (1, 3/2) and its cell 1 at
(2, 3/2), where the first grid has its cell 10; the mean there is 11/2, and merging gives 5. -/
theorem C14_violated_skew :
    shown (oneBand ⟨0, 0, 1, 1, 1, 0⟩ 2 2) =
      some [((1, 1 / 2), some 0), ((2, 1 / 2), some 1), ((2, 3 / 2), some 10), ((3, 3 / 2), some 11)] ∧
    shown (oneBand ⟨0, 1, 1, 1, 1, 0⟩ 1 2) = some [((1, 3 / 2), some 0), ((2, 3 / 2), some 1)] ∧
    (shown ((oneBand ⟨0, 0, 1, 1, 1, 0⟩ 2 2).bind fun g => (oneBand ⟨0, 1, 1, 1, 1, 0⟩ 1 2).bind fun h =>
      merge 0 [g, h] none)).map (List.lookup (2, 3 / 2)) = some (some (some 5)) := by
  refine ⟨?_, ?_, ?_⟩ <;> decide +kernel

/-- C111 is violated for several bands: at the own spacing, the cell with centre (3/2, 1/2) of the first band
changes from 1 to 100, a value of the second band. -/
theorem C111_violated_bands :
    shown (twoBands ⟨0, 0, 1, 1, 0, 0⟩ 2 2) =
      some [((1 / 2, 1 / 2), some 0), ((3 / 2, 1 / 2), some 1), ((1 / 2, 3 / 2), some 10), ((3 / 2, 3 / 2), some 11)] ∧
    shown ((twoBands ⟨0, 0, 1, 1, 0, 0⟩ 2 2).bind fun g =>
        (g.resample 0 0 (kernelDouble (-9)) 1 1 .nearest).getD (.error .other)) =
      some [((1 / 2, 1 / 2), some 0), ((3 / 2, 1 / 2), some 100), ((1 / 2, 3 / 2), some 1), ((3 / 2, 3 / 2), some 101)] := by
  constructor <;> decide +kernel

/-- C111 is violated on skewed grids: at the own spacing, a grid of two columns becomes one of three. -/
theorem C111_violated_skew :
    shown ((oneBand ⟨0, 0, 1, 1, 1, 0⟩ 2 2).bind fun g =>
        (g.resample 0 0 (kernelDouble (-9)) 1 1 .nearest).getD (.error .other)) =
      some [((1, 1 / 2), some 0), ((2, 1 / 2), some 1), ((3, 1 / 2), some (-9)),
        ((2, 3 / 2), some 10), ((3, 3 / 2), some 11), ((4, 3 / 2), some (-9))] := by
  decide +kernel

/-- C112 is violated on skewed grids: cells beyond the last column of centres are made and hold nodata. -/
theorem C112_violated_skew :
    (shown ((oneBand ⟨0, 0, 1, 1, 1, 0⟩ 3 3).bind fun g =>
        (g.resample 0 0 (kernelDouble (-9)) 1 1 .linear).getD (.error .other))).map
      (fun l => (l.length, l.lookup (3, 1 / 2), l.lookup (7, 5 / 2))) = some (15, some (some 2), some (some (-9))) := by
  decide +kernel

/-- C116 is violated for several bands: moving the origin by a quarter of a cell changes the cell with centre
(3/2, 1/2), in the cell that held 1, to 100, a value of the second band. -/
theorem C116_violated_bands :
    shown ((twoBands ⟨1 / 4, 0, 1, 1, 0, 0⟩ 2 2).bind fun g =>
        (g.alignOrigin 0 0 (kernelDouble (-9)) 1 1 .nearest).getD (.error .other)) =
      some [((1 / 2, 1 / 2), some 0), ((3 / 2, 1 / 2), some 100), ((1 / 2, 3 / 2), some 1), ((3 / 2, 3 / 2), some 101)] := by
  decide +kernel

/-- C116 is violated when the steps are larger than the grid: instead of a grid of nodata, ValueError. -/
theorem C116_violated_large_step :
    (((oneBand ⟨3 / 4, 0, 1 / 10, 1 / 10, 0, 0⟩ 2 2).bind fun g =>
        (g.alignOrigin 0 0 (kernelDouble (-9)) 1 1 .nearest).getD (.error .other)).map RGrid.cells) =
      .error .valueError := by
  decide +kernel

end Karta.Grid
