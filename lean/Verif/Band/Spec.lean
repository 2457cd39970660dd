import Verif.Py

/-!
Independent specification of a raster band: a write history and "the last write wins".
-/

namespace Karta.Band.Spec
open Karta

variable {α : Type _}

/-- A request to store `block` with its first pixel at row `yoff`, column `xoff`. -/
structure Write (α : Type _) where
  yoff : Int
  xoff : Int
  block : Arr α

/-- The window `[yoff, yoff+ny) × [xoff, xoff+nx)` lies inside an `H × W` band. -/
def InRange (H W : Nat) (yoff xoff ny nx : Int) : Prop :=
  0 ≤ yoff ∧ 0 ≤ xoff ∧ 0 ≤ ny ∧ 0 ≤ nx ∧ yoff + ny ≤ H ∧ xoff + nx ≤ W

/-- The write lies inside an `H × W` band. -/
def Write.Fits (H W : Nat) (w : Write α) : Prop :=
  InRange H W w.yoff w.xoff w.block.ny w.block.nx

/-- The write addresses pixel `(y, x)`. -/
def Write.Covers (w : Write α) (y x : Int) : Prop :=
  w.yoff ≤ y ∧ y < w.yoff + w.block.ny ∧ w.xoff ≤ x ∧ x < w.xoff + w.block.nx

instance (w : Write α) (y x : Int) : Decidable (w.Covers y x) := by
  unfold Write.Covers; infer_instance

/-- Value the write gives to a pixel it covers. -/
def Write.valueAt (w : Write α) (y x : Int) : α :=
  w.block.get (y - w.yoff).toNat (x - w.xoff).toNat

/-- Value of pixel `(y, x)` after a history of writes, oldest first: that of the most
recent write covering the pixel, or `init` when there is none. -/
def lastWritten (init : α) (ws : List (Write α)) (y x : Int) : α :=
  match ws.reverse.find? (fun w => decide (w.Covers y x)) with
  | some w => w.valueAt y x
  | none => init

end Karta.Band.Spec
