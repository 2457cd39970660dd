import Verif.Grid.Coord
import Verif.Band.Indexer

/-!
Model of the coordinate generator of a grid (karta/raster/coordgen.py 4-63 and
`RegularGrid.coordinates`, karta/raster/grid.py 275-297) under every pair of keys.
Coordinates are exact rationals; the change of coordinate system is a parameter.
-/

namespace Karta.Grid
open Karta Karta.Band

/-- `coordinate_transformer` (coordgen.py 4-11): nothing happens when the two coordinate systems are
equal.  `same` is the outcome of `crs1 == crs2` and `tr` the method `crs1.transform(crs2, x, y)`,
which works element by element. -/
def transformer (same : Bool) (tr : ℚ → ℚ → ℚ × ℚ) (x y : ℚ) : ℚ × ℚ :=
  if same then (x, y) else tr x y

/-- One key after lines 51-54 of coordgen.py: an integer stays what it is, a slice becomes the array
`np.arange(*key.indices(n))`. -/
inductive CKey where
  | scalar (i : Int)
  | array (l : List Int)

/-- coordgen.py 51-54 for one of the keys; a slice with step zero raises `ValueError`. -/
def expandKey (n : Nat) : Key → Except Err CKey
  | .int i => .ok (.scalar i)
  | .slice s =>
    match s.indices n with
    | .error e => .error e
    | .ok (a, b, c) => .ok (.array (Py.range a b c))

/-- coordgen.py 59-63 for a single row and column number. -/
def genAt (T : Xform) (f : ℚ → ℚ → ℚ × ℚ) (i j : Int) : ℚ × ℚ := f (coordGen T i j).1 (coordGen T i j).2

/-- `CoordinateGenerator.__getitem__` (coordgen.py 47-63) with a pair of keys.  The two coordinate
arrays `x_` and `y_` have the same shape and are kept together as one array of pairs.  Two arrays of
more than one number are laid out by `np.meshgrid` (lines 55-57); in all other cases numpy's
broadcasting pairs the numbers up: arrays of lengths `n` and `m` fit if the lengths are equal or one
of them is 1. -/
def coordGenGet (T : Xform) (ny nx : Nat) (f : ℚ → ℚ → ℚ × ℚ) (ky kx : Key) :
    Except Err (NdArr (ℚ × ℚ)) :=
  match expandKey ny ky with
  | .error e => .error e
  | .ok ik =>
    match expandKey nx kx with
    | .error e => .error e
    | .ok jk =>
      match ik, jk with
      | .scalar i, .scalar j => .ok ⟨[], fun _ => genAt T f i j⟩
      | .array r, .scalar j => .ok ⟨[r.length], fun idx => genAt T f (r.getD (idx.getD 0 0) 0) j⟩
      | .scalar i, .array c => .ok ⟨[c.length], fun idx => genAt T f i (c.getD (idx.getD 0 0) 0)⟩
      | .array r, .array c =>
        if 1 < r.length ∧ 1 < c.length then
          .ok ⟨[r.length, c.length],
            fun idx => genAt T f (r.getD (idx.getD 0 0) 0) (c.getD (idx.getD 1 0) 0)⟩
        else if r.length = c.length then
          .ok ⟨[r.length], fun idx => genAt T f (r.getD (idx.getD 0 0) 0) (c.getD (idx.getD 0 0) 0)⟩
        else if r.length = 1 then
          .ok ⟨[c.length], fun idx => genAt T f (r.getD 0 0) (c.getD (idx.getD 0 0) 0)⟩
        else if c.length = 1 then
          .ok ⟨[r.length], fun idx => genAt T f (r.getD (idx.getD 0 0) 0) (c.getD 0 0)⟩
        else .error .valueError

/-- The transformer `grid.coordinates(crs)` sets up (grid.py 275-297, coordgen.py 43-45): without a
coordinate system the grid's own is used, which equals itself. -/
def chosen : Option (Bool × (ℚ → ℚ → ℚ × ℚ)) → ℚ → ℚ → ℚ × ℚ
  | none => transformer true (fun x y => (x, y))
  | some c => transformer c.1 c.2

/-- `grid.coordinates(crs)[ky, kx]` (grid.py 275-297). -/
def coordinatesAt (T : Xform) (ny nx : Nat) (crs : Option (Bool × (ℚ → ℚ → ℚ × ℚ))) (ky kx : Key) :
    Except Err (NdArr (ℚ × ℚ)) :=
  coordGenGet T ny nx (chosen crs) ky kx

end Karta.Grid
