import Verif.Grid.Resample

/-!
Model of grids whose pixels are integers of a fixed size: assignment (karta/raster/band.py 111-168, 324-353), `set_nodata_value`
(karta/raster/grid.py 243-256), `resize` (grid.py 564-617), sums and differences (grid.py 196-210) and the default nodata value
(grid.py 1233-1257).

Simplifications: all bands of a grid have the same type (as the documentation of `RegularGrid` asks for); NumPy converts integers in assignments
to arrays, in `np.full` and in sums of arrays of one type by dropping high bits, and compares integers of any size by value (NumPy before 2).
-/

namespace Karta.Typed
open Karta Karta.Band Karta.Grid

/-- A NumPy integer type, such as `uint8` or `int16`. -/
structure IntType where
  signed : Bool
  bits : Nat
  pos : 0 < bits

namespace IntType

/-- `np.iinfo(T).min` -/
def lo (T : IntType) : Int := if T.signed then -2 ^ (T.bits - 1) else 0

/-- `np.iinfo(T).max` -/
def hi (T : IntType) : Int := if T.signed then 2 ^ (T.bits - 1) - 1 else 2 ^ T.bits - 1

/-- Conversion of an integer to the type: the low bits. -/
def wrap (T : IntType) (n : Int) : Int := (n - T.lo) % 2 ^ T.bits + T.lo

/-- `get_nodata` (grid.py 1250-1253) for integer types. -/
def nodata (T : IntType) : Int := if T.signed then T.lo else T.hi

end IntType

/-- Assignment `grid[ky, kx, kb] = v` (band.py 111-168): the values are converted where `setblock` puts them into a chunk (band.py 350). -/
def setitemT (T : IntType) (bands : List (CBand Int)) (ky kx : Key) (kb : Option Key) (v : Indexer.Value Int) :
    List (CBand Int) × Option Err :=
  Indexer.setitem bands ky kx kb ⟨v.isArray, ⟨v.arr.shape, fun ix => T.wrap (v.arr.get ix)⟩⟩

/-- `set_nodata_value` (grid.py 243-256): `np.where` makes an array wide enough for the new value, the assignment converts it, and `_nodata` is
the value as given. -/
def setNodataT (T : IntType) (garb : Int) (g : RGrid Int) (val : Int) : RGrid Int × Option Err :=
  match g.dataMaskFull garb with
  | .error e => (g, some e)
  | .ok M =>
    match Indexer.getitem g.bands (.slice .all) (.slice .all) (some (.slice .all)) with
    | .error e => (g, some e)
    | .ok A =>
      match setitemT T g.bands (.slice .all) (.slice .all) (some (.slice .all))
          ⟨true, ⟨A.shape, fun ix => if M.get ix then (A.get ix).getD garb else val⟩⟩ with
      | (bs, some e) => ({ g with bands := bs }, some e)
      | (bs, none) => ({ g with bands := bs, nodata := val }, none)

/-- `__add__` (grid.py 196-202) of two grids of type `T`. -/
def addT (T : IntType) (garb : Int) (g h : RGrid Int) : Except Err (RGrid Int) := g.combine (fun a b => T.wrap (a + b)) 0 garb h

/-- `__sub__` (grid.py 204-210) of two grids of type `T`. -/
def subT (T : IntType) (garb : Int) (g h : RGrid Int) : Except Err (RGrid Int) := g.combine (fun a b => T.wrap (a - b)) 0 garb h

/-- `resize` (grid.py 564-617): the new bands are filled with the nodata value converted to the type (grid.py 610-611; band.py 334, 368-370), and the
new grid has the nodata value of the old one as it is. -/
def resizeT (T : IntType) (garb : Int) (g : RGrid Int) (xmin ymin xmax ymax : ℚ) : Except Err (RGrid Int) :=
  match RGrid.resize garb { g with nodata := T.wrap g.nodata } xmin ymin xmax ymax with
  | .error e => .error e
  | .ok r => .ok { r with nodata := g.nodata }

end Karta.Typed
