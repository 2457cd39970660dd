import Verif.Grid.Sample
import Verif.Vec.Along
import Verif.Table.Model

/-!
# Sampling by position and along a line

Model of `RegularGrid.sample` (karta/raster/grid.py 971-1033), which finds out what kind of positions it was given, and of
`RegularGrid.profile` (grid.py 1035-1067).  The conversion between coordinate systems is a parameter; the sampling methods themselves
are modelled in `Verif.Grid.Sample`, the points along a line in `Verif.Vec.Along`.
-/

namespace Karta.Profile
open Karta Karta.Grid Karta.Tab

variable {C κ β R : Type _} [DecidableEq C]

/-- The positional arguments of `sample`: a Point or a Multipoint with the system of its coordinates, another geometry, two sequences,
two numbers, one argument that is no geometry, or nothing. -/
inductive Position (C κ : Type _) where
  | point (x y : κ) (z : Option κ) (crs : C)
  | multipoint (vs : List (κ × κ)) (crs : C)
  | geometry
  | arrays (xs ys : List κ)
  | scalars (x y : κ)
  | lone
  | nothing

/-- What the sampling methods are called with: one position or several. -/
inductive Query (κ : Type _) where
  | one (p : κ × κ)
  | many (ps : List (κ × κ))

/-- The `method` argument. -/
inductive Meth where
  | nearest | bilinear | unknown

/-- Conversions of coordinates (utilities.py 24-27, crs.py 200-202, 245-246, 297-298): of one position and of two sequences. -/
structure Conversion (C κ : Type _) where
  one : C → C → κ → κ → Except Err (κ × κ)
  many : C → C → List κ → List κ → Except Err (List κ × List κ)

/-- `x, y = args[0].coords(crs=self.crs)` for sequences (geometry.py 393-404). -/
def coords (cv : Conversion C κ) (crs own : C) (vs : List (κ × κ)) : Except Err (List κ × List κ) :=
  if own ≠ crs then cv.many crs own (vs.map Prod.fst) (vs.map Prod.snd) else .ok (vs.map Prod.fst, vs.map Prod.snd)

/-- `Point.vertex(crs=self.crs)[:2]` (geometry.py 135-140). -/
def vertex (cv : Conversion C κ) (crs own : C) (x y : κ) : Except Err (κ × κ) :=
  if own = crs then .ok (x, y) else cv.one crs own x y

/-- The positions that `sample` looks up in a grid whose coordinates are in the system `own` (grid.py 1000-1025).  `crs` is the keyword
argument.  Numbers instead of sequences pass the conversion and are then refused by `len`. -/
def locate (cv : Conversion C κ) (own : C) (crs : Option C) : Position C κ → Except Err (Query κ)
  | .point x y _ c => (vertex cv c own x y).map .one
  | .multipoint vs c => (coords cv c own vs).map fun p => .many (p.1.zip p.2)
  | .geometry => .error .typeError
  | .arrays xs ys =>
    match (match crs with
      | none => .ok (xs, ys)
      | some c => cv.many c own xs ys : Except Err (List κ × List κ)) with
    | .error e => .error e
    | .ok p => if p.1.length ≠ p.2.length then .error .typeError else .ok (.many (p.1.zip p.2))
  | .scalars x y =>
    match (match crs with
      | none => .ok (x, y)
      | some c => cv.one c own x y : Except Err (κ × κ)) with
    | .error e => .error e
    | .ok _ => .error .typeError
  | .lone => .error .typeError
  | .nothing => .error .indexError

/-- `RegularGrid.sample` (grid.py 998-1033); `near` and `bil` are `sample_nearest` and `sample_bilinear`. -/
def sample (cv : Conversion C κ) (near bil : Query κ → Except Err R) (own : C) (crs : Option C) (m : Meth) (pos : Position C κ) :
    Except Err R :=
  match locate cv own crs pos with
  | .error e => .error e
  | .ok q =>
    match m with
    | .nearest => near q
    | .bilinear => bil q
    | .unknown => .error .valueError

/-- `"band_{0}".format(i)` (grid.py 1063). -/
def bandName (i : Nat) : String := "band_" ++ Nat.repr i

/-- The loop over the bands (grid.py 1062-1063), from band `i` on. -/
def setBands (z : List (List β)) : Nat → Nat → Table String β → Except Err (Table String β)
  | _, 0, t => .ok t
  | i, n + 1, t =>
    match z[i]? with
    | none => .error .indexError
    | some vs =>
      match t.setfield (bandName i) (vs.map some) with
      | .error e => .error e
      | .ok t' => setBands z (i + 1) n t'

/-- The default resolution, `min(self.transform[2:4])` (grid.py 1056-1057). -/
def defaultResolution (T : Xform) : ℚ := min T.dx T.dy

/-- What `profile` returns: points with their table, and values. -/
structure Profile (β : Type _) where
  points : List (ℝ × ℝ)
  data : Table String β
  values : List (List β)

/-- `RegularGrid.profile` (grid.py 1055-1067) for a line in the grid's system; `S` is `sample` for the coordinates of the points.
The fresh Multipoint has one empty row per point.  `none` where `to_points` does not return. -/
noncomputable def profile (S : List (ℝ × ℝ) → Except Err (List (List β))) (T : Xform) (nbands : Nat) (resolution : Option ℝ) (fuel : Nat)
    (line : List (ℝ × ℝ)) : Option (Except Err (Profile β)) :=
  (Along.toPoints (resolution.getD (defaultResolution T : ℝ)) fuel line).map fun pts =>
    match S pts with
    | .error e => .error e
    | .ok z =>
      match setBands z 0 (if nbands ≠ 1 then nbands else 1) (Table.ofSize [] pts.length) with
      | .error e => .error e
      | .ok t => .ok ⟨pts, t, z⟩

end Karta.Profile
