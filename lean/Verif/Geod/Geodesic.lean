import Verif.Geod.Trig
import Mathlib.Analysis.SpecialFunctions.Trigonometric.Arctan

/-!
# The forward geodesic problem

Model of `ellipsoidal_forward` and `solve_vincenty` (karta/geodesy.py 222-266, 310-419) over the reals.  Rounding is not
modelled.
-/

namespace Karta.Geod.Geodesic
open Karta.Geod

/-- `sum(c*sin(2*(i+1)*s) for i,c in enumerate(C))` (geodesy.py 368, 380, 404, 405). -/
noncomputable def sineSumFrom (s : ℝ) : Nat → List ℝ → ℝ
  | _, [] => 0
  | i, c :: r => c * Real.sin (2 * ((i : ℝ) + 1) * s) + sineSumFrom s (i + 1) r

/-- The sum from `i = 0`. -/
noncomputable def sineSum (s : ℝ) (C : List ℝ) : ℝ := sineSumFrom s 0 C

/-- `A1` (geodesy.py 360). -/
noncomputable def coefA1 (e : ℝ) : ℝ := 1 / (1 - e) * (1 + e ^ 2 / 4 + e ^ 4 / 64 + e ^ 6 / 256)

/-- `C1` (geodesy.py 361-366). -/
noncomputable def coefC1 (e : ℝ) : List ℝ :=
  [-1 / 2 * e + 3 / 16 * e ^ 3 - 1 / 32 * e ^ 5, -1 / 16 * e ^ 2 + 1 / 32 * e ^ 4 - 9 / 2048 * e ^ 6,
   -1 / 48 * e ^ 3 + 3 / 256 * e ^ 5, -5 / 512 * e ^ 4 + 3 / 512 * e ^ 6, -7 / 1280 * e ^ 5, -7 / 2048 * e ^ 6]

/-- `C1p` (geodesy.py 373-378). -/
noncomputable def coefC1p (e : ℝ) : List ℝ :=
  [e / 2 - 9 / 32 * e ^ 3 + 205 / 1536 * e ^ 5, 5 / 16 * e ^ 2 - 37 / 96 * e ^ 4 + 1335 / 4096 * e ^ 6,
   29 / 96 * e ^ 3 - 75 / 128 * e ^ 5, 539 / 1536 * e ^ 4 - 2391 / 2560 * e ^ 6, 3467 / 7680 * e ^ 5, 38081 / 61440 * e ^ 6]

/-- `A3` (geodesy.py 391-393). -/
noncomputable def coefA3 (n e : ℝ) : ℝ :=
  1 - (1 / 2 - n / 2) * e - (1 / 4 + n / 8 - 3 * (n * n) / 8) * e ^ 2 - (1 / 16 + 3 * n / 16 + n * n / 16) * e ^ 3
    - (3 / 64 + n / 32) * e ^ 4 - 3 / 128 * e ^ 5

/-- `C3` (geodesy.py 395-402). -/
noncomputable def coefC3 (n e : ℝ) : List ℝ :=
  [(1 / 4 - n / 4) * e + (1 / 8 - n * n / 8) * e ^ 2 + (3 / 64 + 3 * n / 64 - n * n / 64) * e ^ 3
     + (5 / 128 + n / 64) * e ^ 4 + 3 / 128 * e ^ 5,
   (1 / 16 - 3 * n / 32 + n * n / 32) * e ^ 2 + (3 / 64 - n / 32 - 3 * (n * n) / 64) * e ^ 3
     + (3 / 128 + n / 128) * e ^ 4 + 5 / 256 * e ^ 5,
   (5 / 192 - 3 * n / 64 + 5 * (n * n) / 192) * e ^ 3 + (3 / 128 - 5 * n / 192) * e ^ 4 + 7 / 512 * e ^ 5,
   (7 / 512 - 7 * n / 256) * e ^ 4 + 7 * e ^ 5 / 512, 21 * e ^ 5 / 2560]

/-- `eps` from `k2` (geodesy.py 358-359). -/
noncomputable def epsOf (k2 : ℝ) : ℝ := (Real.sqrt (1 + k2) - 1) / (Real.sqrt (1 + k2) + 1)

/-- `_solve_NEA`: `sigma1` (geodesy.py 268-270). -/
noncomputable def neaSigma (alpha1 beta1 : ℝ) : ℝ := atan2 (Real.sin beta1) (Real.cos alpha1 * Real.cos beta1)

/-- `_solve_NEA`: `omega1` (geodesy.py 271). -/
noncomputable def neaOmega (alpha0 sigma1 : ℝ) : ℝ := atan2 (Real.sin alpha0 * Real.sin sigma1) (Real.cos sigma1)

/-- `alpha0` (geodesy.py 347-348). -/
noncomputable def alphaZero (alpha1 beta1 : ℝ) : ℝ :=
  atan2 (Real.sin alpha1 * Real.cos beta1) (Real.sqrt (Real.cos alpha1 ^ 2 + (Real.sin alpha1 * Real.sin beta1) ^ 2))

/-- `ellipsoidal_forward` (geodesy.py 310-419): longitude, latitude and back azimuth at the destination, in degrees. -/
noncomputable def ellipsoidalForward (a b x y azimuth distance : ℝ) : ℝ × ℝ × ℝ :=
  let f := (a - b) / a
  let phi1 := Real.pi * y / 180
  let alpha1 := Real.pi * azimuth / 180
  let beta1 := Real.arctan ((1 - f) * Real.tan phi1)
  let alpha0 := alphaZero alpha1 beta1
  let sigma1 := neaSigma alpha1 beta1
  let omega1 := neaOmega alpha0 sigma1
  let eccn2 := f * (2 - f)
  let k2 := eccn2 / (1 - eccn2) * Real.cos alpha0 ^ 2
  let eps := epsOf k2
  let A1 := coefA1 eps
  let s1 := A1 * (sigma1 + sineSum sigma1 (coefC1 eps)) * b
  let s2 := s1 + distance
  let tau2 := s2 / (b * A1)
  let sigma2 := tau2 + sineSum tau2 (coefC1p eps)
  let alpha2 := atan2 (Real.sin alpha0) (Real.cos alpha0 * Real.cos sigma2)
  let j := Real.sqrt ((Real.cos alpha0 * Real.cos sigma2) ^ 2 + Real.sin alpha0 ^ 2)
  let beta2 := atan2 (Real.cos alpha0 * Real.sin sigma2) j
  let omega2 := atan2 (Real.sin alpha0 * Real.sin sigma2) (Real.cos sigma2)
  let n := f / (2 - f)
  let I3s1 := coefA3 n eps * (sigma1 + sineSum sigma1 (coefC3 n eps))
  let I3s2 := coefA3 n eps * (sigma2 + sineSum sigma2 (coefC3 n eps))
  let lambda1 := omega1 - f * Real.sin alpha0 * I3s1
  let lambda2 := omega2 - f * Real.sin alpha0 * I3s2
  let lambda12 := lambda2 - lambda1
  let phi2 := Real.arctan (Real.tan beta2 / (1 - f))
  let x2 := x + lambda12 * 180 / Real.pi
  let x2' := open Classical in if 180 ≤ x2 then x2 - 360 else x2
  (pyModR (x2' + 180) 360 - 180, phi2 * 180 / Real.pi, pyModR ((alpha2 + Real.pi) * 180 / Real.pi + 180) 360 - 180)

/-- `solve_vincenty` (geodesy.py 222-266): both azimuths (radians) and the distance. -/
noncomputable def solveVincenty (a f lambda12 phi1 phi2 : ℝ) : ℝ × ℝ × ℝ :=
  let eccn2 := f * (2 - f)
  let beta1 := Real.arctan ((1 - f) * Real.tan phi1)
  let beta2 := Real.arctan ((1 - f) * Real.tan phi2)
  let w := Real.sqrt (1 - eccn2 * (1 / 2 * (Real.cos beta1 + Real.cos beta2)) ^ 2)
  let omega12 := lambda12 / w
  let z1r := Real.cos beta1 * Real.sin beta2 - Real.sin beta1 * Real.cos beta2 * Real.cos omega12
  let z1i := Real.cos beta2 * Real.sin omega12
  let z1 := Real.sqrt (z1r ^ 2 + z1i ^ 2)
  let sigma12 := atan2 z1 (Real.sin beta1 * Real.sin beta2 + Real.cos beta1 * Real.cos beta2 * Real.cos omega12)
  let z2r := -Real.sin beta1 * Real.cos beta2 + Real.cos beta1 * Real.sin beta2 * Real.cos omega12
  let z2i := Real.cos beta1 * Real.sin omega12
  (atan2 z1i z1r, atan2 z2i z2r, a * w * sigma12)

end Karta.Geod.Geodesic
