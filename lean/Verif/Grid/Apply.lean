import Verif.Grid.Window

/-!
# Applying a function to the values of a grid

Model of `Grid.apply` (karta/raster/grid.py 54-79) on the bands of `Verif.Band.Indexer`.

Simplifications: the function takes and returns a list of values; data types of bands are left out.
-/

namespace Karta.Grid
open Karta Karta.Band Karta.Band.Indexer

variable {α : Type _}

/-- `grid[msk] = func(self[msk])` with `msk = self.data_mask_full` (grid.py 71, 74, 78): the grid afterwards and the error raised, if any.
Bands assigned before the error keep their new values. -/
def RGrid.applyTo [DecidableEq α] (garb : α) (f : List α → List α) (g : RGrid α) : RGrid α × Option Err :=
  match g.dataMaskFull garb with
  | .error e => (g, some e)
  | .ok M =>
    match getMask3 g.bands g.size.1 g.size.2 g.bands.length (fun k => ⟨g.size.1, g.size.2, fun r c => M.get [r, c, k]⟩) with
    | .error e => (g, some e)
    | .ok vs =>
      ({ g with bands := (setMask garb (.three g.bands.length fun k => ⟨g.size.1, g.size.2, fun r c => M.get [r, c, k]⟩)
          (.vec (f (vs.map fun v => v.getD garb))) 0 g.bands).1 },
        (setMask garb (.three g.bands.length fun k => ⟨g.size.1, g.size.2, fun r c => M.get [r, c, k]⟩)
          (.vec (f (vs.map fun v => v.getD garb))) 0 g.bands).2)

/-- What the caller gets. -/
def outcome (r : RGrid α × Option Err) : Except Err (RGrid α) :=
  match r.2 with
  | none => .ok r.1
  | some e => .error e

/-- `grid.apply(func, inplace)` (grid.py 54-79): the grid itself afterwards, and what is returned.  Without `inplace` a deep copy is
changed. -/
def RGrid.apply [DecidableEq α] (garb : α) (f : List α → List α) (inplace : Bool) (g : RGrid α) : RGrid α × Except Err (RGrid α) :=
  if inplace then ((g.applyTo garb f).1, outcome (g.applyTo garb f)) else (g, outcome (g.applyTo garb f))

end Karta.Grid
