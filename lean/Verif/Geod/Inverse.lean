import Verif.Geod.Geodesic
import Verif.Geod.Sphere

/-!
# The inverse geodesic problem and areas on the sphere

Model of `_canonical_configuration`, `_solve_NEB`, `solve_astroid`, `ellipsoidal_inverse`, `spherical_area`
(karta/geodesy.py 115-126, 188-220, 274-308, 420-640) and of `Polygon.area` on a sphere (karta/vector/geometry.py 1110-1143), over
the reals.  Rounding is not modelled.  The root finder is a parameter here (its own model is `Verif.Geod.Brent`).
-/

namespace Karta.Geod.Geodesic
open Karta Karta.Geod Karta.Geod.Sphere

/-- What `_canonical_configuration` returns; the first longitude is always 0. -/
structure Canon where
  yflip : Bool
  ysignswap : Bool
  xflip : Bool
  y1 : ℝ
  x2 : ℝ
  y2 : ℝ

open Classical in
/-- `_canonical_configuration` (geodesy.py 285-308). -/
noncomputable def canonical (x1 y1 x2 y2 : ℝ) : Canon :=
  let f := |y1| < |y2|
  let ya := if f then y2 else y1
  let yb := if f then y1 else y2
  let s := 0 < ya
  let x := reduceDeg (x2 - x1)
  let m := x < 0 ∨ 180 < x
  ⟨decide f, decide s, decide m, if s then -ya else ya, if m then -x else x, if s then -yb else yb⟩

/-- `_radians` (geodesy.py 73-74). -/
noncomputable def radians (d : ℝ) : ℝ := d / 180 * Real.pi

open Classical in
/-- `math.acos`: ValueError outside [-1, 1]. -/
noncomputable def pyAcos (x : ℝ) : Except Err ℝ :=
  if -1 ≤ x ∧ x ≤ 1 then .ok (Real.arccos x) else .error .valueError

open Classical in
/-- `math.asin`: ValueError outside [-1, 1]. -/
noncomputable def pyAsin (x : ℝ) : Except Err ℝ :=
  if -1 ≤ x ∧ x ≤ 1 then .ok (Real.arcsin x) else .error .valueError

open Classical in
/-- `math.sqrt`: ValueError for negative arguments. -/
noncomputable def pySqrt (x : ℝ) : Except Err ℝ :=
  if x < 0 then .error .valueError else .ok (Real.sqrt x)

open Classical in
/-- Division: ZeroDivisionError for a zero denominator. -/
noncomputable def pyDiv (x y : ℝ) : Except Err ℝ :=
  if y = 0 then .error .zeroDivision else .ok (x / y)

/-- The azimuth of `_solve_NEB` (geodesy.py 276-280): only ValueError is caught. -/
noncomputable def nebAlpha (alpha0 alpha1 beta1 beta2 : ℝ) : Except Err ℝ :=
  match (do
    let r ← pySqrt (Real.cos alpha1 ^ 2 * Real.cos beta1 ^ 2 + (Real.cos beta2 ^ 2 - Real.cos beta1 ^ 2))
    let q ← pyDiv r (Real.cos beta2)
    pyAcos q) with
  | .error .valueError => do
    let q ← pyDiv (Real.sin alpha0) (Real.cos beta2)
    pyAsin q
  | r => r

/-- `_solve_NEB` (geodesy.py 274-283): azimuth, arc and longitude at the second point. -/
noncomputable def solveNEB (alpha0 alpha1 beta1 beta2 : ℝ) : Except Err (ℝ × ℝ × ℝ) := do
  let alpha2 ← nebAlpha alpha0 alpha1 beta1 beta2
  let sigma2 := atan2 (Real.sin beta2) (Real.cos alpha2 * Real.cos beta2)
  .ok (alpha2, sigma2, atan2 (Real.sin alpha0 * Real.sin sigma2) (Real.cos sigma2))

/-- `solve_astroid` (geodesy.py 188-220).  `root lo hi f tol` stands for `fzero_brent`. -/
noncomputable def solveAstroid (root : ℝ → ℝ → (ℝ → ℝ) → ℝ → Except Err ℝ) (a f lambda12 phi1 phi2 : ℝ) : Except Err ℝ := do
  let beta1 := Real.arctan ((1 - f) * Real.tan phi1)
  let beta2 := Real.arctan ((1 - f) * Real.tan phi2)
  let delta := f * a * Real.pi * Real.cos beta1 ^ 2
  let x ← pyDiv ((lambda12 - Real.pi) * (a * Real.cos beta1)) delta
  let y ← pyDiv ((beta2 + beta1) * a) delta
  let mu ← root (1 / 10 ^ 6) (Real.pi * a)
    (fun mu => mu ^ 4 + 2 * mu ^ 3 + (1 - x ^ 2 - y ^ 2) * mu ^ 2 - 2 * y ^ 2 * mu - y ^ 2) (1 / 10 ^ 12)
  let p ← pyDiv (-x) (1 + mu)
  let q ← pyDiv y mu
  .ok (atan2 p q)

/-- `C2` (geodesy.py 575-580). -/
noncomputable def coefC2 (e : ℝ) : List ℝ :=
  [1 / 2 * e + 1 / 16 * e ^ 3 + 1 / 32 * e ^ 5, 3 / 16 * e ^ 2 + 1 / 32 * e ^ 4 + 35 / 2048 * e ^ 6,
   5 / 48 * e ^ 3 + 5 / 256 * e ^ 5, 35 / 512 * e ^ 4 + 7 / 512 * e ^ 6, 63 / 1280 * e ^ 5, 77 / 2048 * e ^ 6]

/-- `A2` (geodesy.py 574). -/
noncomputable def coefA2 (e : ℝ) : ℝ := (1 - e) * (1 + 1 / 4 * e ^ 2 + 9 / 64 * e ^ 4 + 25 / 256 * e ^ 6)

/-- What the three branches of `ellipsoidal_inverse` leave behind. -/
structure Tri where
  alpha0 : ℝ
  alpha1 : ℝ
  alpha2 : ℝ
  sigma1 : ℝ
  sigma2 : ℝ

/-- `lambda12_next - lambda12` (geodesy.py 528-558). -/
noncomputable def lambdaError (f lambda12 eps alpha0 sigma1 omega1 sigma2 omega2 : ℝ) : ℝ :=
  let n := f / (2 - f)
  let I3s1 := coefA3 n eps * (sigma1 + sineSum sigma1 (coefC3 n eps))
  let I3s2 := coefA3 n eps * (sigma2 + sineSum sigma2 (coefC3 n eps))
  (omega2 - f * Real.sin alpha0 * I3s2) - (omega1 - f * Real.sin alpha0 * I3s1) - lambda12

/-- The refined azimuth (geodesy.py 562-592). -/
noncomputable def refine (a b beta2 k2 eps alpha1 alpha2 sigma1 sigma2 dlambda12 : ℝ) : Except Err ℝ := do
  let I1 := fun s => coefA1 eps * (s + sineSum s (coefC1 eps))
  let I2 := fun s => coefA2 eps * (s + sineSum s (coefC2 eps))
  let Js1 := I1 sigma1 - I2 sigma1
  let Js2 := I1 sigma2 - I2 sigma2
  let m12 := b * (Real.sqrt (1 + k2 * Real.sin sigma2 ^ 2) * Real.cos sigma1 * Real.sin sigma2
    - Real.sqrt (1 + k2 * Real.sin sigma1 ^ 2) * Real.sin sigma1 * Real.cos sigma2
    - Real.cos sigma1 * Real.cos sigma2 * (Js2 - Js1))
  let slope ← pyDiv m12 (a * Real.cos alpha2 * Real.cos beta2)
  let step ← pyDiv (-dlambda12) slope
  .ok (pyModR (alpha1 + step) (2 * Real.pi))

open Classical in
/-- The Newton loop (geodesy.py 518-594) with the number of rounds left.  It is entered with 100 rounds left. -/
noncomputable def newton (a b lambda12 beta1 beta2 tol : ℝ) : Nat → ℝ → Except Err Tri
  | 0, _ => .error .other
  | n + 1, alpha1 => do
    let f := (a - b) / a
    let eccn2 := f * (2 - f)
    let alpha0 := alphaZero alpha1 beta1
    let sigma1 := neaSigma alpha1 beta1
    let omega1 := neaOmega alpha0 sigma1
    let q ← solveNEB alpha0 alpha1 beta1 beta2
    let k2 := eccn2 / (1 - eccn2) * Real.cos alpha0 ^ 2
    let eps := epsOf k2
    let d := lambdaError f lambda12 eps alpha0 sigma1 omega1 q.2.1 q.2.2
    if tol < |d| then
      let alpha1' ← refine a b beta2 k2 eps alpha1 q.1 sigma1 q.2.1 d
      if n = 0 then .ok ⟨alpha0, alpha1', q.1, sigma1, q.2.1⟩ else newton a b lambda12 beta1 beta2 tol n alpha1'
    else .ok ⟨alpha0, alpha1, q.1, sigma1, q.2.1⟩

open Classical in
/-- The three branches of `ellipsoidal_inverse` (geodesy.py 471-596) on the canonical configuration. -/
noncomputable def triangle (root : ℝ → ℝ → (ℝ → ℝ) → ℝ → Except Err ℝ) (a b tol : ℝ) (c : Canon) : Except Err Tri :=
  let phi1 := c.y1 * Real.pi / 180
  let phi2 := c.y2 * Real.pi / 180
  let lambda12 := (c.x2 - 0) * Real.pi / 180
  let f := (a - b) / a
  let beta1 := Real.arctan ((1 - f) * Real.tan phi1)
  let beta2 := Real.arctan ((1 - f) * Real.tan phi2)
  if 0 = c.x2 then do
    let alpha0 := alphaZero 0 beta1
    let q ← solveNEB alpha0 0 beta1 beta2
    .ok ⟨alpha0, 0, 0, neaSigma 0 beta1, q.2.1⟩
  else if |pyModR lambda12 (2 * Real.pi) - Real.pi| < 1 / 10 ^ 12 then
    let alpha1 := if 0 < c.y1 + c.y2 then 0 else Real.pi
    let alpha2 := if 0 < c.y1 + c.y2 then Real.pi else 0
    do
      let q ← solveNEB alpha1 alpha1 beta1 beta2
      .ok ⟨alpha1, alpha1, alpha2, neaSigma alpha1 beta1, q.2.1⟩
  else do
    let alpha1 ← if 87 / 10000 < |lambda12 - Real.pi| ∧ 87 / 10000 < |phi1 + phi2| then
        Except.ok (solveVincenty a f lambda12 phi1 phi2).1
      else solveAstroid root a f lambda12 phi1 phi2
    newton a b lambda12 beta1 beta2 tol 100 alpha1

/-- Undoing the canonical configuration (geodesy.py 624-636). -/
noncomputable def undo (c : Canon) (alpha1 alpha2 : ℝ) : ℝ × ℝ :=
  let p := if c.xflip then (-alpha1, -alpha2) else (alpha1, alpha2)
  let p := if c.yflip then (Real.pi - p.2, Real.pi - p.1) else p
  if c.ysignswap then (Real.pi - p.1, Real.pi - p.2) else p

/-- `_ellipsoidal_inverse_equatorial` (geodesy.py 420-429). -/
noncomputable def inverseEquatorial (a x1 x2 : ℝ) : ℝ × ℝ × ℝ :=
  open Classical in
  if pyModR (x2 - x1 + 180) 360 - 180 < 0 then (-90, 90, 2 * Real.pi * a * |x1 - x2| / 360)
  else (90, -90, 2 * Real.pi * a * |x1 - x2| / 360)

open Classical in
/-- `ellipsoidal_inverse` (geodesy.py 431-640): azimuth, back azimuth (degrees) and distance.  The warning about convergence is
not modelled. -/
noncomputable def ellipsoidalInverse (root : ℝ → ℝ → (ℝ → ℝ) → ℝ → Except Err ℝ) (a b x1 y1 x2 y2 tol : ℝ) :
    Except Err (ℝ × ℝ × ℝ) :=
  if y1 = y2 ∧ y2 = 0 then .ok (inverseEquatorial a x1 x2)
  else do
    let c := canonical x1 y1 x2 y2
    let t ← triangle root a b tol c
    let f := (a - b) / a
    let eccn2 := f * (2 - f)
    let eps := epsOf (eccn2 / (1 - eccn2) * Real.cos t.alpha0 ^ 2)
    let I1 := fun s => coefA1 eps * (s + sineSum s (coefC1 eps))
    let p := undo c t.alpha1 t.alpha2
    .ok (pyModR (p.1 * 180 / Real.pi + 180) 360 - 180, pyModR ((p.2 + Real.pi) * 180 / Real.pi + 180) 360 - 180,
      I1 t.sigma2 * b - I1 t.sigma1 * b)

open Classical in
/-- `spherical_area` (geodesy.py 115-126). -/
noncomputable def sphericalArea (r x1 y1 x2 y2 : ℝ) : ℝ :=
  let reverse : ℝ := if x2 < x1 then -1 else 1
  let c := canonical x1 y1 x2 y2
  let v := solveVincenty r 0 (radians (c.x2 - 0)) (radians c.y1) (radians c.y2)
  reverse * r ^ 2 * (v.2.1 - v.1)

/-- A polygon: its ring and its sub-polygons. -/
inductive Poly where
  | mk (ring : List (ℝ × ℝ)) (subs : List Poly)

/-- `Polygon.segment_tuples` (geometry.py 1087-1091): the segment that closes the ring comes first. -/
def ringSegs (l : List (ℝ × ℝ)) : List ((ℝ × ℝ) × (ℝ × ℝ)) :=
  match l.getLast? with
  | none => []
  | some z => (z :: l).zip l

/-- The loop over the segments (geometry.py 1124-1128). -/
noncomputable def ringArea (r : ℝ) (l : List (ℝ × ℝ)) : ℝ :=
  ((ringSegs l).map fun s => sphericalArea r s.1.1 s.1.2 s.2.1 s.2.2).sum

mutual
/-- `Polygon.area` in a system with a sphere of radius `r` (geometry.py 1110-1143). -/
noncomputable def polyArea (r : ℝ) : Poly → ℝ
  | .mk ring subs => |ringArea r ring| - subsArea r subs
/-- `sum(sub.area for sub in self.subs)` (geometry.py 1143). -/
noncomputable def subsArea (r : ℝ) : List Poly → ℝ
  | [] => 0
  | p :: ps => polyArea r p + subsArea r ps
end

end Karta.Geod.Geodesic
