import Mathlib.Algebra.Field.Basic
import Mathlib.Algebra.Field.Rat
import Mathlib.Analysis.SpecialFunctions.Trigonometric.Basic
import Verif.Py

/-!
Model of affine transforms of geometries (karta/vector/geometry.py 47-64, 180-222, 316-332,
483-553, 1429-1469).  Coordinates range over a field: the rationals for computation, the reals for
rotations.  Rounding is not modelled.
-/

namespace Karta.Tr

/-- The vertices of a geometry: all of rank 2 or all of rank 3. -/
inductive Verts (K : Type) where
  | two (vs : List (K × K))
  | three (vs : List (K × K × K))
  deriving DecidableEq

/-- Number of vertices. -/
def Verts.length {K : Type} : Verts K → Nat
  | .two vs => vs.length
  | .three vs => vs.length

/-- A row `(m0, m1, m2, m3)` of a 3x4 matrix. -/
structure Row (K : Type) where
  m0 : K
  m1 : K
  m2 : K
  m3 : K
  deriving DecidableEq

/-- A matrix argument by its shape; any other shape is `other`. -/
inductive Mat (K : Type) where
  | m23 (a b c d e f : K)
  | m34 (r0 r1 r2 : Row K)
  | other
  deriving DecidableEq

variable {K : Type} [Field K]

/-- The shape test and the embedding of a 2x3 matrix in a 3x4 one
(geometry.py 515-522, also 200-207 and 1454-1461). -/
def embed : Mat K → Except Err (Row K × Row K × Row K)
  | .m23 a b c d e f => .ok (⟨a, b, 0, c⟩, ⟨d, e, 0, f⟩, ⟨0, 0, 1, 0⟩)
  | .m34 r0 r1 r2 => .ok (r0, r1, r2)
  | .other => .error .valueError

/-- One entry of `np.dot(M, xy.T)` for a column `(x, y, z, 1)` (geometry.py 531). -/
def Row.dot (r : Row K) (x y z : K) : K := r.m0 * x + r.m1 * y + r.m2 * z + r.m3

/-- A multi-vertex geometry: vertices, properties, a per-vertex table for geometries that have
one, and sub-polygons for polygons. -/
structure Geom (K P D : Type) where
  verts : Verts K
  props : P
  data : Option D
  subs : List (Verts K)

variable {P D : Type}

/-- The vertices after `apply_transform` (geometry.py 524-533): a rank 2 geometry is padded with
`z = 0` and the third row of the result is dropped. -/
def transformVerts (M : Row K × Row K × Row K) : Verts K → Verts K
  | .two vs => .two (vs.map fun v => (M.1.dot v.1 v.2 0, M.2.1.dot v.1 v.2 0))
  | .three vs => .three (vs.map fun v =>
      (M.1.dot v.1 v.2.1 v.2.2, M.2.1.dot v.1 v.2.1 v.2.2, M.2.2.dot v.1 v.2.1 v.2.2))

/-- `MultiVertexMixin.apply_transform` (geometry.py 483-539): the new geometry gets the properties,
the data table if there is one, and no sub-polygons. -/
def applyTransform (M : Mat K) (g : Geom K P D) : Except Err (Geom K P D) :=
  if g.verts.length = 0 then .error .valueError
  else
    match embed M with
    | .error e => .error e
    | .ok N => .ok { verts := transformVerts N g.verts, props := g.props, data := g.data, subs := [] }

/-- `MultiVertexMixin.shift` (geometry.py 541-553). -/
def shift (v : List K) (g : Geom K P D) : Except Err (Geom K P D) :=
  match v with
  | [dx, dy] => applyTransform (.m23 1 0 dx 0 1 dy) g
  | _ => .error .valueError

/-- `Rotatable.rotate` (geometry.py 49-64). -/
noncomputable def rotate (thetad : ℝ) (origin : ℝ × ℝ) (g : Geom ℝ P D) : Except Err (Geom ℝ P D) :=
  let ct := Real.cos (thetad * Real.pi / 180)
  let st := Real.sin (thetad * Real.pi / 180)
  let x := origin.1
  let y := origin.2
  applyTransform (.m23 ct (-st) (-x * ct + y * st + x) st ct (-x * st - y * ct + y)) g

/-- The vertex of a `Point`. -/
inductive Vertex (K : Type) where
  | two (x y : K)
  | three (x y z : K)
  deriving DecidableEq

/-- `Point.apply_transform` (geometry.py 180-222). -/
def pointTransform (M : Mat K) (p : Vertex K) : Except Err (Vertex K) :=
  match embed M with
  | .error e => .error e
  | .ok N =>
    match p with
    | .two x y =>
      .ok (.two (x * N.1.m0 + y * N.1.m1 + 0 * N.1.m2 + N.1.m3)
        (x * N.2.1.m0 + y * N.2.1.m1 + 0 * N.2.1.m2 + N.2.1.m3))
    | .three x y z =>
      .ok (.three (x * N.1.m0 + y * N.1.m1 + z * N.1.m2 + N.1.m3)
        (x * N.2.1.m0 + y * N.2.1.m1 + z * N.2.1.m2 + N.2.1.m3)
        (x * N.2.2.m0 + y * N.2.2.m1 + z * N.2.2.m2 + N.2.2.m3))

/-- `Point.shift` (geometry.py 316-332). -/
def pointShift (v : List K) (p : Vertex K) : Except Err (Vertex K) :=
  match v, p with
  | [dx, dy], .two x y => .ok (.two (x + dx) (y + dy))
  | [dx, dy], .three x y z => .ok (.three (x + dx) (y + dy) z)
  | _, _ => .error .valueError

/-- `MultiVertexMultipartMixin.apply_transform` (geometry.py 1429-1469): the matrix is embedded and
applied to every member, each built with the member's own properties; the multipart keeps its
properties and table.  Members are modelled by their vertices alone. -/
def multipartTransform (M : Mat K) (parts : List (Verts K)) : Except Err (List (Verts K)) :=
  match embed M with
  | .error e => .error e
  | .ok N => parts.mapM fun p =>
      (applyTransform (P := Unit) (D := Unit) (.m34 N.1 N.2.1 N.2.2) ⟨p, (), none, []⟩).map (·.verts)

end Karta.Tr
