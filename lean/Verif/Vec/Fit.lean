import Verif.Vec.Transform

/-!
# Fitting an affine transformation

Model of `affine_matrix` (karta/vector/geometry.py 1833-1852) for points in one coordinate system.  `numpy.linalg.lstsq` is outside the
repository: it is a parameter, and the theorems assume of it only that what it returns minimises the sum of squares.
-/

namespace Karta.Fit
open Karta Karta.Tr

/-- `np.kron(np.eye(2), [x, y, 1])` for every point (geometry.py 1848-1850). -/
def design : List (ℚ × ℚ) → List (List ℚ)
  | [] => []
  | (x, y) :: ps => [x, y, 1, 0, 0, 0] :: [0, 0, 0, x, y, 1] :: design ps

/-- `np.asarray(vertices).ravel()` (geometry.py 1847). -/
def ravel : Verts ℚ → List ℚ
  | .two vs => vs.flatMap fun v => [v.1, v.2]
  | .three vs => vs.flatMap fun v => [v.1, v.2.1, v.2.2]

/-- `np.reshape(M, [2, 3])` (geometry.py 1852). -/
def reshape : List ℚ → Except Err (Mat ℚ)
  | [a, b, c, d, e, f] => .ok (.m23 a b c d e f)
  | _ => .error .valueError

/-- The loop over the vertices (geometry.py 1849-1850): a vertex with three coordinates cannot be unpacked into `(x, y)`. -/
def matrixOf : Verts ℚ → Except Err (List (List ℚ))
  | .two vs => .ok (design vs)
  | .three [] => .ok []
  | .three (_ :: _) => .error .valueError

/-- `affine_matrix` (geometry.py 1833-1852).  `lstsq` raises if the numbers of rows differ. -/
def affineMatrix (lstsq : List (List ℚ) → List ℚ → Except Err (List ℚ)) (mpa mpb : Verts ℚ) : Except Err (Mat ℚ) :=
  if mpa.length ≠ mpb.length then .error .other else
  match matrixOf mpa with
  | .error e => .error e
  | .ok A =>
    if A.length ≠ (ravel mpb).length then .error .other else
    match lstsq A (ravel mpb) with
    | .error e => .error e
    | .ok m => reshape m

end Karta.Fit
