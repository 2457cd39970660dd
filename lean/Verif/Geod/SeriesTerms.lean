import Verif.Geod.Poly
import Verif.Geod.Geodesic
import Mathlib.Analysis.SpecialFunctions.Trigonometric.Deriv

/-!
# The series of the forward geodesic problem

How far the truncated series of `ellipsoidal_forward` (karta/geodesy.py 358-405; the model is in `Verif.Geod.Geodesic`) are from the functions
that they stand for.  `e` is the small number `eps` of the code and `n` is its third flattening.
-/

namespace Karta.Geod.SeriesTerms
open Karta Karta.Geod Karta.Geod.Geodesic Karta.Geod.Poly

/-! ### The polynomials -/

/-- The factor of `A1`. -/
def a1 : Ex := .const 1 + .const (1/4) * .e ^ 2 + .const (1/64) * .e ^ 4 + .const (1/256) * .e ^ 6
/-- The coefficients of `C1`. -/
def p1 : Ex := .const (-1/2) * .e + .const (3/16) * .e ^ 3 + .const (-1/32) * .e ^ 5
def p2 : Ex := .const (-1/16) * .e ^ 2 + .const (1/32) * .e ^ 4 + .const (-9/2048) * .e ^ 6
def p3 : Ex := .const (-1/48) * .e ^ 3 + .const (3/256) * .e ^ 5
def p4 : Ex := .const (-5/512) * .e ^ 4 + .const (3/512) * .e ^ 6
def p5 : Ex := .const (-7/1280) * .e ^ 5
def p6 : Ex := .const (-7/2048) * .e ^ 6
/-- The coefficients of `C1p`. -/
def r1 : Ex := .const (1/2) * .e + .const (-9/32) * .e ^ 3 + .const (205/1536) * .e ^ 5
def r2 : Ex := .const (5/16) * .e ^ 2 + .const (-37/96) * .e ^ 4 + .const (1335/4096) * .e ^ 6
def r3 : Ex := .const (29/96) * .e ^ 3 + .const (-75/128) * .e ^ 5
def r4 : Ex := .const (539/1536) * .e ^ 4 + .const (-2391/2560) * .e ^ 6
def r5 : Ex := .const (3467/7680) * .e ^ 5
def r6 : Ex := .const (38081/61440) * .e ^ 6
/-- `A3`. -/
def a3 : Ex := .const 1 - (.const (1/2) - .const (1/2) * .n) * .e
  - (.const (1/4) + .const (1/8) * .n - .const (3/8) * .n ^ 2) * .e ^ 2
  - (.const (1/16) + .const (3/16) * .n + .const (1/16) * .n ^ 2) * .e ^ 3 - (.const (3/64) + .const (1/32) * .n) * .e ^ 4 - .const (3/128) * .e ^ 5
/-- The coefficients of `C3`. -/
def q1 : Ex := (.const (1/4) - .const (1/4) * .n) * .e + (.const (1/8) - .const (1/8) * .n ^ 2) * .e ^ 2
  + (.const (3/64) + .const (3/64) * .n - .const (1/64) * .n ^ 2) * .e ^ 3 + (.const (5/128) + .const (1/64) * .n) * .e ^ 4 + .const (3/128) * .e ^ 5
def q2 : Ex := (.const (1/16) - .const (3/32) * .n + .const (1/32) * .n ^ 2) * .e ^ 2
  + (.const (3/64) - .const (1/32) * .n - .const (3/64) * .n ^ 2) * .e ^ 3 + (.const (3/128) + .const (1/128) * .n) * .e ^ 4 + .const (5/256) * .e ^ 5
def q3 : Ex := (.const (5/192) - .const (3/64) * .n + .const (5/192) * .n ^ 2) * .e ^ 3 + (.const (3/128) - .const (5/192) * .n) * .e ^ 4
  + .const (7/512) * .e ^ 5
def q4 : Ex := (.const (7/512) - .const (7/256) * .n) * .e ^ 4 + .const (7/512) * .e ^ 5
def q5 : Ex := .const (21/2560) * .e ^ 5

/-- `cos (l * t)` in terms of `x = cos t`. -/
def t2 : Ex := .const 2 * .x ^ 2 - .const 1
def t3 : Ex := .const 4 * .x ^ 3 - .const 3 * .x
def t4 : Ex := .const 8 * .x ^ 4 - .const 8 * .x ^ 2 + .const 1
def t5 : Ex := .const 16 * .x ^ 5 - .const 20 * .x ^ 3 + .const 5 * .x
def t6 : Ex := .const 32 * .x ^ 6 - .const 48 * .x ^ 4 + .const 18 * .x ^ 2 - .const 1
/-- `sin (l * t) / sin t`. -/
def u2 : Ex := .const 2 * .x
def u3 : Ex := .const 4 * .x ^ 2 - .const 1
def u4 : Ex := .const 8 * .x ^ 3 - .const 4 * .x
def u5 : Ex := .const 16 * .x ^ 4 - .const 12 * .x ^ 2 + .const 1
def u6 : Ex := .const 32 * .x ^ 5 - .const 32 * .x ^ 3 + .const 6 * .x

/-- The derivative of the first series. -/
def hh : Ex := a1 * (.const 1 + .const 2 * p1 * .x + .const 4 * p2 * t2 + .const 6 * p3 * t3 + .const 8 * p4 * t4 + .const 10 * p5 * t5 + .const 12 * p6 * t6)
/-- The derivative of the third series. -/
def gg : Ex := a3 * (.const 1 + .const 2 * q1 * .x + .const 4 * q2 * t2 + .const 6 * q3 * t3 + .const 8 * q4 * t4 + .const 10 * q5 * t5)
/-- The correction of the reverted series, over the sine. -/
def dd : Ex := r1 + r2 * u2 + r3 * u3 + r4 * u4 + r5 * u5 + r6 * u6

/-- The square of the derivative of the first series has no error below the seventh order. -/
def arcEx : Ex := hh ^ 2 - (.const 1 - .const 2 * .e * .x + .e ^ 2)
/-- The product of the derivative of the third series and its denominator has no error below the sixth order. -/
def lonEx : Ex := ((.const 1 + .n) * (.const 1 - .e) + (.const 1 - .n) * hh) * gg - .const 2 * (.const 1 - .e)
/-- `1 - x ^ 2`, the square of the sine. -/
def ww : Ex := .const 1 - .x ^ 2
/-- The series applied to the reverted series has no error below the seventh order. -/
def revEx : Ex := dd
  + p1 * (.const 1 + .const 2 * .x * dd - .const 2 * (ww * dd ^ 2) - .const (4/3) * (.x * (ww * dd ^ 3)) + .const (2/3) * (ww ^ 2 * dd ^ 4)
      + .const (4/15) * (.x * (ww ^ 2 * dd ^ 5)))
  + p2 * (u2 + .const 4 * t2 * dd - .const 8 * (u2 * (ww * dd ^ 2)) - .const (32/3) * (t2 * (ww * dd ^ 3)) + .const (32/3) * (u2 * (ww ^ 2 * dd ^ 4)))
  + p3 * (u3 + .const 6 * t3 * dd - .const 18 * (u3 * (ww * dd ^ 2)) - .const 36 * (t3 * (ww * dd ^ 3)))
  + p4 * (u4 + .const 8 * t4 * dd - .const 32 * (u4 * (ww * dd ^ 2)))
  + p5 * (u5 + .const 10 * t5 * dd)
  + p6 * u6

set_option maxRecDepth 100000 in
theorem arc_check : check arcEx 7 21 = true := by decide +kernel
set_option maxRecDepth 100000 in
theorem hh_check : check (hh - .const 1) 1 2 = true := by decide +kernel
set_option maxRecDepth 100000 in
theorem lon_check : check lonEx 6 60 = true := by decide +kernel
set_option maxRecDepth 100000 in
theorem gg_check : check (gg - .const 1) 1 2 = true := by decide +kernel
set_option maxRecDepth 100000 in
theorem rev_check : check revEx 7 251 = true := by decide +kernel
set_option maxRecDepth 100000 in
theorem dd_check : check dd 1 (7/10) = true := by decide +kernel
theorem p1_check : check p1 1 (51/100) = true := by decide +kernel
theorem p2_check : check p2 2 (1/15) = true := by decide +kernel
theorem p3_check : check p3 3 (1/45) = true := by decide +kernel
theorem p4_check : check p4 4 (1/100) = true := by decide +kernel
theorem p5_check : check p5 5 (7/1280) = true := by decide +kernel
theorem p6_check : check p6 6 (7/2048) = true := by decide +kernel

end Karta.Geod.SeriesTerms
