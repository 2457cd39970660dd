/-
Python / numpy primitives shared by all models.  These model the *language runtime*,
not the repository: the behaviour is that documented for CPython and numpy.
-/

namespace Karta

/-- Exception classes raised by the modelled code (Python built-in exceptions). -/
inductive Err where
  | valueError | indexError | typeError | keyError | notImplemented
  | zeroDivision | nameError | attributeError | other
  deriving DecidableEq, Repr

namespace Py

/-- `math.ceil(float(a)/b)` for integers and positive `b`.
Simplification: the float quotient is exact. -/
def ceilDiv (a b : Int) : Int := -((-a) / b)

/-- A Python `slice(start, stop, step)` object. -/
structure Slice where
  start : Option Int
  stop : Option Int
  step : Option Int
  deriving DecidableEq, Repr

/-- `slice(None, None, None)`, i.e. `:` -/
def Slice.all : Slice := ⟨none, none, none⟩

/-- One bound of `slice.indices(n)` (CPython `PySlice_AdjustIndices`): negative values
count from the end, then the value is clamped to `[lower, upper]`. -/
def adjust (v n lower upper : Int) : Int :=
  if v < 0 then (if v + n < lower then lower else v + n)
  else (if v > upper then upper else v)

/-- `slice.indices(n)`: `(start, stop, step)`, or `ValueError` for a zero step. -/
def Slice.indices (s : Slice) (n : Int) : Except Err (Int × Int × Int) :=
  let step := s.step.getD 1
  if step = 0 then .error .valueError
  else
    let lower : Int := if step < 0 then -1 else 0
    let upper : Int := if step < 0 then n - 1 else n
    let start := match s.start with
      | none => if step < 0 then upper else lower
      | some v => adjust v n lower upper
    let stop := match s.stop with
      | none => if step < 0 then lower else upper
      | some v => adjust v n lower upper
    .ok (start, stop, step)

/-- Number of elements of `range(a, b, s)`. -/
def rangeLen (a b s : Int) : Nat :=
  if s > 0 then (if a < b then ((b - a - 1) / s + 1).toNat else 0)
  else if s < 0 then (if b < a then ((a - b - 1) / (-s) + 1).toNat else 0)
  else 0

/-- `list(range(a, b, s))`. -/
def range (a b s : Int) : List Int :=
  (List.range (rangeLen a b s)).map fun (k : Nat) => a + (k : Int) * s

/-- `list(range(a, b))`. -/
def range1 (a b : Int) : List Int :=
  (List.range (b - a).toNat).map fun (k : Nat) => a + (k : Int)

/-- Indexing a Python list with an integer: negative indices count from the end. -/
def index? {α : Type _} (l : List α) (i : Int) : Option α :=
  if 0 ≤ i then l[i.toNat]?
  else if 0 ≤ i + l.length then l[(i + l.length).toNat]? else none

/-- The position denoted by a Python list index, when it is in range. -/
def normIndex (n : Nat) (i : Int) : Option Nat :=
  if 0 ≤ i then (if i < n then some i.toNat else none)
  else if 0 ≤ i + n then some (i + n).toNat else none

/-- First position selected by the unit-step slice `a:b` of an axis of length `n`. -/
def sliceStart (n : Nat) (a : Int) : Nat :=
  if a < 0 then (a + n).toNat else min a.toNat n

/-- Number of positions selected by the unit-step slice `a:b` of an axis of length `n`. -/
def sliceLen (n : Nat) (a b : Int) : Nat := sliceStart n b - sliceStart n a

end Py

/-- A two-dimensional numpy array: a shape and an index function.
Only indices inside the shape are meaningful. -/
structure Arr (α : Type _) where
  ny : Nat
  nx : Nat
  get : Nat → Nat → α

namespace Arr
variable {α : Type _}

/-- `np.full((ny, nx), v)`; negative dimensions raise `ValueError`. -/
def full (ny nx : Int) (v : α) : Except Err (Arr α) :=
  if 0 ≤ ny ∧ 0 ≤ nx then .ok ⟨ny.toNat, nx.toNat, fun _ _ => v⟩ else .error .valueError

/-- Basic slicing `A[y0:y1, x0:x1]`. -/
def slice (A : Arr α) (y0 y1 x0 x1 : Int) : Arr α where
  ny := Py.sliceLen A.ny y0 y1
  nx := Py.sliceLen A.nx x0 x1
  get := fun r c => A.get (Py.sliceStart A.ny y0 + r) (Py.sliceStart A.nx x0 + c)

/-- Slice assignment `A[y0:y1, x0:x1] = B` with numpy broadcasting: an axis of `B` must
match the selected length or have length one, otherwise `ValueError`. -/
def assign (A : Arr α) (y0 y1 x0 x1 : Int) (B : Arr α) : Except Err (Arr α) :=
  let ty := Py.sliceLen A.ny y0 y1
  let tx := Py.sliceLen A.nx x0 x1
  let sy := Py.sliceStart A.ny y0
  let sx := Py.sliceStart A.nx x0
  if (B.ny = ty ∨ B.ny = 1) ∧ (B.nx = tx ∨ B.nx = 1) then
    .ok { A with
      get := fun y x =>
        if sy ≤ y ∧ y < sy + ty ∧ sx ≤ x ∧ x < sx + tx then
          B.get (if B.ny = 1 then 0 else y - sy) (if B.nx = 1 then 0 else x - sx)
        else A.get y x }
  else .error .valueError

/-- Two arrays with the same shape and the same elements inside the shape. -/
def Same (A B : Arr α) : Prop :=
  A.ny = B.ny ∧ A.nx = B.nx ∧ ∀ r c, r < A.ny → c < A.nx → A.get r c = B.get r c

/-- `array.map`: apply a function to every element. -/
def map {β : Type _} (f : α → β) (A : Arr α) : Arr β := ⟨A.ny, A.nx, fun r c => f (A.get r c)⟩

end Arr
end Karta
