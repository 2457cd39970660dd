import Verif.Geod.Inverse
import Mathlib.Analysis.SpecialFunctions.Log.Basic

/-!
# Areas on an ellipsoid

Model of `_ellipsoidal_area`, `ellipsoidal_area` (karta/geodesy.py 637-729) and of `Polygon.area` in a geographical system whose
ellipsoid is not a sphere (karta/vector/geometry.py 1110-1143), over the reals.  Rounding is not modelled.  The root finder
`root` and the tolerance `tol` of `ellipsoidal_inverse` (1e-12 in the code) are parameters.
-/

namespace Karta.Geod.Geodesic
open Karta Karta.Geod Karta.Geod.Sphere

open Classical in
/-- `math.atanh`: ValueError outside (-1, 1). -/
noncomputable def pyAtanh (x : ℝ) : Except Err ℝ :=
  if -1 < x ∧ x < 1 then .ok (1 / 2 * Real.log ((1 + x) / (1 - x))) else .error .valueError

/-- `C40` (geodesy.py 666-670). -/
noncomputable def coefC40 (p k : ℝ) : ℝ :=
  (2 / 3 - p / 15 + 4 * p ^ 2 / 105 - 8 * p ^ 3 / 315 + 64 * p ^ 4 / 3465 - 128 * p ^ 5 / 9009)
    - (1 / 20 - p / 35 + 2 * p ^ 2 / 105 - 16 * p ^ 3 / 1155 + 32 * p ^ 4 / 3003) * k
    + (1 / 42 - p / 63 + 8 * p ^ 2 / 693 - 90 * p ^ 3 / 9009) * k ^ 2
    - (1 / 72 - p / 99 + 10 * p ^ 2 / 1287) * k ^ 3
    + (1 / 110 - p / 143) * k ^ 4 - k ^ 5 / 156

/-- `C41` (geodesy.py 672-675). -/
noncomputable def coefC41 (p k : ℝ) : ℝ :=
  (1 / 180 - p / 315 + 2 * p ^ 2 / 945 - 16 * p ^ 3 / 10395 + 32 * p ^ 4 / 27027) * k
    - (1 / 252 - p / 378 + 4 * p ^ 2 / 2079 - 40 * p ^ 3 / 27027) * k ^ 2
    + (1 / 360 - p / 495 + 2 * p ^ 2 / 1287) * k ^ 3
    - (1 / 495 - 2 * p / 1287) * k ^ 4 + 5 * k ^ 5 / 3276

/-- `C42` (geodesy.py 677-679). -/
noncomputable def coefC42 (p k : ℝ) : ℝ :=
  (1 / 2100 - p / 3150 + 4 * p ^ 2 / 17325 - 8 * p ^ 3 / 45045) * k ^ 2
    - (1 / 1800 - p / 2475 + 2 * p ^ 2 / 6435) * k ^ 3
    + (1 / 1925 - 2 * p / 5005) * k ^ 4 - k ^ 5 / 2184

/-- `C43` (geodesy.py 681-682). -/
noncomputable def coefC43 (p k : ℝ) : ℝ :=
  (1 / 17640 - p / 24255 + 2 * p ^ 2 / 63063) * k ^ 3
    - (1 / 10780 - p / 14014) * k ^ 4 + 5 * k ^ 5 / 45864

/-- `C44` (geodesy.py 684). -/
noncomputable def coefC44 (p k : ℝ) : ℝ := (1 / 124740 - p / 162162) * k ^ 4 - 1 * k ^ 5 / 58968

/-- `Cs` (geodesy.py 686-688). -/
noncomputable def coefC4 (p k : ℝ) : List ℝ :=
  [coefC40 p k, coefC41 p k, coefC42 p k, coefC43 p k, coefC44 p k, k ^ 5 / 792792]

/-- `sum(c*cos((2*i+1)*sigma) for i,c in enumerate(Cs))` (geodesy.py 689-690), from index `i`. -/
noncomputable def cosineSumFrom (s : ℝ) : Nat → List ℝ → ℝ
  | _, [] => 0
  | i, c :: r => c * Real.cos ((2 * (i : ℝ) + 1) * s) + cosineSumFrom s (i + 1) r

/-- `_ellipsoidal_area` (geodesy.py 637-693).  Its arguments `lambda12` and `alpha2` are not used.  At the poles and for nodes
half a turn apart the code takes the tangent of a number next to a right angle, which is huge; here it is 0. -/
noncomputable def ellAreaCore (a b phi1 phi2 alpha1 : ℝ) : Except Err ℝ := do
  let f := (a - b) / a
  let e2 := f * (2 - f)
  let ep2 := e2 / (1 - e2)
  let e ← pySqrt e2
  let h ← pyAtanh e
  let q ← pyDiv (b ^ 2 / 2 * h) e
  let c ← pySqrt (a ^ 2 / 2 + q)
  let beta1 := Real.arctan ((1 - f) * Real.tan phi1)
  let beta2 := Real.arctan ((1 - f) * Real.tan phi2)
  let alpha0 := alphaZero alpha1 beta1
  let sigma1 := neaSigma alpha1 beta1
  let omega1 := neaOmega alpha0 sigma1
  let n ← solveNEB alpha0 alpha1 beta1 beta2
  let t ← pyDiv (Real.sin (1 / 2 * beta1 + 1 / 2 * beta2)) (Real.cos (1 / 2 * beta2 - 1 / 2 * beta1))
  let alpha12 := 2 * Real.arctan (t * Real.tan (1 / 2 * (n.2.2 - omega1)))
  let k2 := ep2 * Real.cos alpha0 ^ 2
  let I4 := fun s => cosineSumFrom s 0 (coefC4 ep2 k2)
  .ok (c ^ 2 * alpha12 + e ^ 2 * a ^ 2 * Real.cos alpha0 * Real.sin alpha0 * (I4 n.2.1 - I4 sigma1))

open Classical in
/-- `ellipsoidal_area` (geodesy.py 697-729). -/
noncomputable def ellipsoidalArea (root : ℝ → ℝ → (ℝ → ℝ) → ℝ → Except Err ℝ) (a b tol x1 y1 x2 y2 : ℝ) : Except Err ℝ := do
  let reverse : ℝ := if x2 < x1 then -1 else 1
  let c := canonical x1 y1 x2 y2
  let i ← ellipsoidalInverse root a b 0 c.y1 c.x2 c.y2 tol
  let s ← ellAreaCore a b (c.y1 * Real.pi / 180) (c.y2 * Real.pi / 180) (i.1 * Real.pi / 180)
  .ok (reverse * s)

/-- The loop over the segments (geometry.py 1131-1135). -/
noncomputable def ellSides (root : ℝ → ℝ → (ℝ → ℝ) → ℝ → Except Err ℝ) (a b tol : ℝ) :
    List ((ℝ × ℝ) × (ℝ × ℝ)) → Except Err ℝ
  | [] => .ok 0
  | s :: r => do
    let v ← ellipsoidalArea root a b tol s.1.1 s.1.2 s.2.1 s.2.2
    let w ← ellSides root a b tol r
    .ok (v + w)

mutual
/-- `Polygon.area` in a system with an ellipsoid that is not a sphere (geometry.py 1110-1143). -/
noncomputable def ellPolyArea (root : ℝ → ℝ → (ℝ → ℝ) → ℝ → Except Err ℝ) (a b tol : ℝ) : Poly → Except Err ℝ
  | .mk ring subs => do
    let v ← ellSides root a b tol (ringSegs ring)
    let w ← ellSubsArea root a b tol subs
    .ok (|v| - w)
/-- `sum(sub.area for sub in self.subs)` (geometry.py 1143). -/
noncomputable def ellSubsArea (root : ℝ → ℝ → (ℝ → ℝ) → ℝ → Except Err ℝ) (a b tol : ℝ) : List Poly → Except Err ℝ
  | [] => .ok 0
  | p :: ps => do
    let v ← ellPolyArea root a b tol p
    let w ← ellSubsArea root a b tol ps
    .ok (v + w)
end

end Karta.Geod.Geodesic
