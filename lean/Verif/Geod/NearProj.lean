import Mathlib.Data.Real.Basic
import Verif.Py

/-!
# The point of a geodesic nearest to a given point

Model of `pt_nearest_proj` and its helpers (karta/vector/vectorgeo.pyx 257-319).  `fwd` and `inv` are the geodesic problems of the
coordinate system: position after going `f` in direction `az`, and (azimuth, back azimuth, distance).  Simplifications: real arithmetic; a
zero division in the C helper leaves 0, as `x / 0 = 0` here.
-/

namespace Karta.NearProj
open Karta

/-- `fwd(x, y, az, d)`: longitude, latitude, back azimuth. -/
abbrev Fwd := ℝ → ℝ → ℝ → ℝ → ℝ × ℝ × ℝ
/-- `inv(x0, y0, x1, y1)`: azimuth, back azimuth, distance. -/
abbrev Inv := ℝ → ℝ → ℝ → ℝ → ℝ × ℝ × ℝ

/-- `_along_distance` (vectorgeo.pyx 257-264). -/
def alongDistance (fwd : Fwd) (inv : Inv) (p q : ℝ × ℝ) (az f : ℝ) : ℝ :=
  let t := fwd p.1 p.2 az f
  (inv t.1 t.2.1 q.1 q.2).2.2

/-- `_along_distance_gradient` (vectorgeo.pyx 266-272). -/
noncomputable def gradient (fwd : Fwd) (inv : Inv) (p q : ℝ × ℝ) (az f dx : ℝ) : ℝ :=
  let d1 := alongDistance fwd inv p q az f
  let d2 := alongDistance fwd inv p q az (f + dx)
  (d2 - d1) / dx

open Classical in
/-- The bisection (vectorgeo.pyx 297-315) with `n` rounds left; `grad` is the gradient as a function of the distance along the arc. -/
noncomputable def bisect (grad : ℝ → ℝ) (L tol : ℝ) : Nat → ℝ → ℝ → ℝ → ℝ → Except Err ℝ
  | n, x0, x1, xm, dx =>
    if dx > tol then
      match n with
      | 0 => .error .other
      | n + 1 =>
        let xm := 1 / 2 * (x0 + x1)
        if grad (xm * L) > 0 then bisect grad L tol n x0 xm xm (|x1 - xm| * L)
        else bisect grad L tol n xm x1 xm (|x0 - xm| * L)
    else .ok xm

open Classical in
/-- `pt_nearest_proj` (vectorgeo.pyx 274-319): the point and its distance. -/
noncomputable def ptNearestProj (fwd : Fwd) (inv : Inv) (pt e0 e1 : ℝ × ℝ) (tol : ℝ) (maxiter : Nat) : Except Err ((ℝ × ℝ) × ℝ) :=
  let az := (inv e0.1 e0.2 e1.1 e1.2).1
  let L := (inv e0.1 e0.2 e1.1 e1.2).2.2
  let dx := 1 / 10000000 * L
  if gradient fwd inv e0 pt az 0 dx > 0 then .ok (e0, alongDistance fwd inv e0 pt az 0)
  else if gradient fwd inv e0 pt az L dx < 0 then .ok (e1, alongDistance fwd inv e0 pt az L)
  else
    match bisect (fun f => gradient fwd inv e0 pt az f dx) L tol maxiter 0 1 0 (tol + 1) with
    | .error e => .error e
    | .ok xm =>
      let t := fwd e0.1 e0.2 az (xm * L)
      .ok ((t.1, t.2.1), alongDistance fwd inv e0 pt az (xm * L))

end Karta.NearProj
