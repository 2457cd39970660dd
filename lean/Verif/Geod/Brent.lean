import Mathlib.Algebra.Order.Ring.Rat
import Mathlib.Algebra.Order.Field.Rat
import Verif.Py

/-!
Model of the root finder of karta/geodesy.py 734-818 over exact rational arithmetic (the code uses doubles;
rounding is not modelled).  `none` stands for NaN, with which every comparison is false.
-/

namespace Karta.Geod.Brent
open Karta

/-- State of the loop. -/
structure St where
  a : ℚ
  b : ℚ
  c : ℚ
  d : Option ℚ
  fa : ℚ
  fb : ℚ
  mflag : Bool

/-- Inverse quadratic interpolation or the secant (geodesy.py 771-779); a zero denominator raises ZeroDivisionError. -/
def trial (s : St) (fc : ℚ) : Except Err ℚ :=
  if s.fa ≠ fc ∧ s.fb ≠ fc then
    if (s.fa - s.fb) * (s.fa - fc) = 0 ∨ (s.fb - s.fa) * (s.fb - fc) = 0 ∨ (fc - s.fa) * (fc - s.fb) = 0 then
      .error .zeroDivision
    else .ok (s.a * s.fb * fc / ((s.fa - s.fb) * (s.fa - fc)) + s.b * s.fa * fc / ((s.fb - s.fa) * (s.fb - fc))
      + s.c * s.fa * s.fb / ((fc - s.fa) * (fc - s.fb)))
  else if s.fb - s.fa = 0 then .error .zeroDivision
  else .ok (s.b - s.fb * (s.b - s.a) / (s.fb - s.fa))

/-- The tests that lead to bisection (geodesy.py 781-785).  `~mflag` is -2 or -1, hence always true. -/
def reject (s : St) (t : ℚ) : Bool :=
  (!decide (1 / 4 * (3 * s.a + s.b) < t ∧ t < s.b) && !decide (s.b < t ∧ t < 1 / 4 * (3 * s.a + s.b))) ||
  (s.mflag && decide (|t - s.b| ≥ 1 / 2 * |s.b - s.c|)) ||
  ((s.d.map fun d => decide (|t - s.b| ≥ 1 / 2 * |s.c - d|)).getD false) ||
  (s.mflag && decide (|s.b - s.c| < 1 / 10000000000)) ||
  ((s.d.map fun d => decide (|s.c - d| < 1 / 10000000000)).getD false)

/-- The interpolated abscissa, or the midpoint (geodesy.py 781-790). -/
def choose (s : St) (t : ℚ) : ℚ × Bool :=
  if reject s t then (1 / 2 * (s.a + s.b), true) else (t, false)

/-- The new bracket (geodesy.py 792-806). -/
def nextState (f : ℚ → ℚ) (s : St) (p : ℚ) (mflag : Bool) : St :=
  let s1 : St := if f s.a * f p < 0 then ⟨s.a, p, s.b, some s.c, f s.a, f p, mflag⟩
    else ⟨p, s.b, s.b, some s.c, f p, f s.b, mflag⟩
  if |s1.fa| < |s1.fb| then { s1 with a := s1.b, b := s1.a, fa := s1.fb, fb := s1.fa } else s1

/-- The loop (geodesy.py 768-818) with `n` iterations left; RuntimeError is reported as `other`. -/
def loop (f : ℚ → ℚ) (tol : ℚ) : Nat → St → Except Err ℚ
  | 0, _ => .error .other
  | n + 1, s =>
    match trial s (f s.c) with
    | .error e => .error e
    | .ok t =>
      let p := choose s t
      let s' := nextState f s p.1 p.2
      if s'.fb = 0 then .ok s'.b
      else if f p.1 = 0 then .ok p.1
      else if |s'.b - s'.a| < tol then .ok s'.b
      else loop f tol n s'

/-- `fzero_brent` (geodesy.py 734-818).  When the ends are exchanged the function values are not. -/
def fzeroBrent (a b : ℚ) (f : ℚ → ℚ) (tol : ℚ) : Except Err ℚ :=
  if f a = 0 then .ok a
  else if f b = 0 then .ok b
  else if f a * f b > 0 then .error .valueError
  else if |f a| < |f b| then loop f tol 1000 ⟨b, a, b, none, f a, f b, true⟩
  else loop f tol 1000 ⟨a, b, a, none, f a, f b, true⟩

end Karta.Geod.Brent
