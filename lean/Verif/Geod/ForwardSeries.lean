import Verif.Geod.SeriesBounds
import Verif.Geod.AreaSeries

/-!
# Destinations on an ellipsoid

The destination that `ellipsoidal_forward` (karta/geodesy.py 310-419; the model is `ellipsoidalForward` in `Verif.Geod.Geodesic`) gives is compared with
the end of the geodesic (C176).
-/

namespace Karta.Geod.ForwardSeries
open Karta Karta.Geod Karta.Geod.Sphere Karta.Geod.Geodesic Karta.Geod.AreaSeries Karta.Geod.SeriesBounds Karta.Geod.SeriesTerms

/-! ### Specification -/

/-- The rate at which the length of the geodesic that crosses the equator with the azimuth `alpha0` grows with the arc. -/
noncomputable def speed (a b alpha0 s : ℝ) : ℝ := Real.sqrt (b ^ 2 + (a ^ 2 - b ^ 2) * (Real.cos alpha0 * Real.sin s) ^ 2)

/-- Length of that geodesic from arc `s1` to arc `s2`. -/
noncomputable def pathLength (a b alpha0 s1 s2 : ℝ) : ℝ := ∫ s in s1..s2, speed a b alpha0 s

/-- Difference of the longitudes of its points at the arcs `s1` and `s2`. -/
noncomputable def pathLongitude (a b alpha0 s1 s2 : ℝ) : ℝ := ∫ s in s1..s2, lonRate a b alpha0 s

/-! ### The small numbers -/

variable {a b alpha0 : ℝ}

/-- The number `eps` of the code. -/
noncomputable def eps (a b alpha0 : ℝ) : ℝ := epsOf ((a ^ 2 - b ^ 2) / b ^ 2 * Real.cos alpha0 ^ 2)

theorem eps_spec (hb : 0 < b) (hab : b < a) : 0 ≤ eps a b alpha0 ∧ eps a b alpha0 < 1 ∧ eps a b alpha0 ≤ (a - b) / (a + b) ∧
    (a ^ 2 - b ^ 2) / b ^ 2 * Real.cos alpha0 ^ 2 = 4 * eps a b alpha0 / (1 - eps a b alpha0) ^ 2 := by
  have ha : 0 < a := hb.trans hab
  have hk : 0 ≤ (a ^ 2 - b ^ 2) / b ^ 2 := div_nonneg (by nlinarith) (by positivity)
  have hc := Real.cos_sq_le_one alpha0
  have hk0 : 0 ≤ (a ^ 2 - b ^ 2) / b ^ 2 * Real.cos alpha0 ^ 2 := mul_nonneg hk (sq_nonneg _)
  have hk1 : 1 + (a ^ 2 - b ^ 2) / b ^ 2 * Real.cos alpha0 ^ 2 ≤ (a / b) ^ 2 := by
    have : (a / b) ^ 2 = 1 + (a ^ 2 - b ^ 2) / b ^ 2 := by field_simp; ring
    rw [this]
    nlinarith
  unfold eps epsOf
  generalize (a ^ 2 - b ^ 2) / b ^ 2 * Real.cos alpha0 ^ 2 = k at *
  have r1 : 1 ≤ Real.sqrt (1 + k) := Real.one_le_sqrt.2 (by linarith)
  have r2 := Real.sq_sqrt (show 0 ≤ 1 + k by linarith)
  have r3 : Real.sqrt (1 + k) ≤ a / b := Real.sqrt_le_iff.2 ⟨by positivity, hk1⟩
  generalize Real.sqrt (1 + k) = r at *
  have r4 : r * b ≤ a := (le_div_iff₀ hb).1 r3
  refine ⟨div_nonneg (by linarith) (by linarith), (div_lt_one (by linarith)).2 (by linarith), ?_, ?_⟩
  · rw [div_le_div_iff₀ (by linarith) (by linarith)]
    nlinarith
  · have e1 : 1 - (r - 1) / (r + 1) = 2 / (r + 1) := by
      have : r + 1 ≠ 0 := by linarith
      field_simp; ring
    rw [e1]
    have : r + 1 ≠ 0 := by linarith
    field_simp
    nlinarith

/-- The speed in terms of `eps`. -/
theorem speed_eq (hb : 0 < b) (hab : b < a) (s : ℝ) : speed a b alpha0 s =
    b * (1 / (1 - eps a b alpha0) * Real.sqrt (1 - 2 * eps a b alpha0 * Real.cos (2 * s) + eps a b alpha0 ^ 2)) := by
  obtain ⟨h0, h1, -, h2⟩ := eps_spec (alpha0 := alpha0) hb hab
  generalize eps a b alpha0 = e at *
  have hx : |Real.cos (2 * s)| ≤ 1 := Real.abs_cos_le_one _
  obtain ⟨x1, x2⟩ := abs_le.1 hx
  have hY : 0 ≤ 1 - 2 * e * Real.cos (2 * s) + e ^ 2 := by nlinarith
  have he : 0 < 1 - e := by linarith
  unfold speed
  rw [Real.sqrt_eq_iff_eq_sq _ (by positivity), mul_pow b, mul_pow (1 / (1 - e)), Real.sq_sqrt hY]
  · have h3 : (a ^ 2 - b ^ 2) * Real.cos alpha0 ^ 2 = b ^ 2 * (4 * e / (1 - e) ^ 2) := by
      rw [← h2]; field_simp
    rw [mul_pow, ← mul_assoc, h3, Real.cos_two_mul]
    have := Real.sin_sq_add_cos_sq s
    field_simp
    linear_combination (4 * e) * this
  · have : 0 ≤ a ^ 2 - b ^ 2 := by nlinarith
    positivity

theorem speed_continuous : Continuous (speed a b alpha0) := by
  unfold speed
  fun_prop

theorem small (h0 : Real.sin alpha0 ≠ 0) (s : ℝ) : 0 < 1 - (Real.cos alpha0 * Real.sin s) ^ 2 := by
  have h1 := Real.sin_sq_add_cos_sq alpha0
  have h2 := Real.sin_sq_add_cos_sq s
  have h3 : 0 < Real.sin alpha0 ^ 2 := by positivity
  rw [mul_pow]
  nlinarith [sq_nonneg (Real.cos alpha0), sq_nonneg (Real.cos s), mul_nonneg (sq_nonneg (Real.cos alpha0)) (sq_nonneg (Real.cos s))]

theorem lonRate_eq (hb : 0 < b) (hab : b < a) (h0 : Real.sin alpha0 ≠ 0) (s : ℝ) : lonRate a b alpha0 s =
    Real.sin alpha0 / (1 - (Real.cos alpha0 * Real.sin s) ^ 2) - (a - b) / a * Real.sin alpha0 * ((a + b) / (a + speed a b alpha0 s)) := by
  have ha : 0 < a := hb.trans hab
  have hs := small h0 s
  unfold lonRate reduced
  rw [Real.cos_arcsin, Real.sq_sqrt hs.le]
  unfold speed
  generalize Real.cos alpha0 * Real.sin s = x at *
  have hg : 0 ≤ b ^ 2 + (a ^ 2 - b ^ 2) * x ^ 2 := by
    have : 0 ≤ a ^ 2 - b ^ 2 := by nlinarith
    positivity
  have e1 : Real.sqrt (1 - (a ^ 2 - b ^ 2) / a ^ 2 * (1 - x ^ 2)) = Real.sqrt (b ^ 2 + (a ^ 2 - b ^ 2) * x ^ 2) / a := by
    rw [show 1 - (a ^ 2 - b ^ 2) / a ^ 2 * (1 - x ^ 2) = (b ^ 2 + (a ^ 2 - b ^ 2) * x ^ 2) / a ^ 2 by field_simp; ring,
      Real.sqrt_div' _ (by positivity), Real.sqrt_sq ha.le]
  rw [e1]
  have r2 := Real.sq_sqrt hg
  have r0 := Real.sqrt_nonneg (b ^ 2 + (a ^ 2 - b ^ 2) * x ^ 2)
  generalize Real.sqrt (b ^ 2 + (a ^ 2 - b ^ 2) * x ^ 2) = g at *
  have hag : a + g ≠ 0 := by linarith
  generalize hw : 1 - x ^ 2 = w at *
  have xw : x ^ 2 = 1 - w := by linarith
  rw [xw] at r2
  field_simp
  linear_combination r2

theorem lonRate_continuous (hb : 0 < b) (hab : b < a) (h0 : Real.sin alpha0 ≠ 0) : Continuous (lonRate a b alpha0) := by
  have ha : 0 < a := hb.trans hab
  rw [show lonRate a b alpha0 = fun s => Real.sin alpha0 / (1 - (Real.cos alpha0 * Real.sin s) ^ 2)
    - (a - b) / a * Real.sin alpha0 * ((a + b) / (a + speed a b alpha0 s)) from funext (lonRate_eq hb hab h0)]
  have hs := speed_continuous (a := a) (b := b) (alpha0 := alpha0)
  refine Continuous.sub (Continuous.div (by fun_prop) (by fun_prop) (fun s => (small h0 s).ne'))
    (Continuous.mul continuous_const (Continuous.div continuous_const (by fun_prop) (fun s => ?_)))
  have : 0 ≤ speed a b alpha0 s := Real.sqrt_nonneg _
  linarith

/-- A function whose derivative is close to another function is close to its integral. -/
theorem integral_close {F F' g : ℝ → ℝ} {C : ℝ} (hg : Continuous g) (hF : ∀ s, HasDerivAt F (F' s) s) (hC : ∀ s, |F' s - g s| ≤ C) (s1 s2 : ℝ) :
    |(F s2 - F s1) - ∫ s in s1..s2, g s| ≤ C * |s2 - s1| := by
  have k := (convex_univ (𝕜 := ℝ) (E := ℝ)).norm_image_sub_le_of_norm_hasDerivWithin_le
    (f := fun s => F s - ∫ t in s1..s, g t) (f' := fun s => F' s - g s) (C := C)
    (fun s _ => ((hF s).sub (hg.integral_hasStrictDerivAt s1 s).hasDerivAt).hasDerivWithinAt)
    (fun s _ => hC s) (Set.mem_univ s1) (Set.mem_univ s2)
  simp only [intervalIntegral.integral_same, sub_zero, Real.norm_eq_abs] at k
  convert k using 2
  ring

/-! ### Distances -/

/-- The distance from the node that the code computes. -/
noncomputable def codeArc (e s : ℝ) : ℝ := coefA1 e * (s + sineSum s (coefC1 e))

theorem codeArc_deriv (e s : ℝ) : HasDerivAt (codeArc e) (coefA1 e * (1 + cosSumFrom s 0 (coefC1 e))) s :=
  ((hasDerivAt_id s).add (sineSumFrom_deriv s (coefC1 e) 0)).const_mul (coefA1 e)

theorem arc_close (hb : 0 < b) (hab : b < a) (hn : (a - b) / (a + b) ≤ 1 / 10) (s1 s2 : ℝ) :
    |b * (codeArc (eps a b alpha0) s2 - codeArc (eps a b alpha0) s1) - pathLength a b alpha0 s1 s2| ≤ b * (16 * eps a b alpha0 ^ 7) * |s2 - s1| := by
  obtain ⟨h0, h1, h2, -⟩ := eps_spec (alpha0 := alpha0) hb hab
  have k := integral_close (F := fun s => b * codeArc (eps a b alpha0) s) (C := b * (16 * eps a b alpha0 ^ 7)) (speed_continuous (a := a) (b := b)
    (alpha0 := alpha0)) (fun s => (codeArc_deriv _ s).const_mul b) (fun s => by
      rw [speed_eq hb hab, arc_rate 0]
      generalize eps a b alpha0 = e at *
      have hx : |Real.cos (2 * s)| ≤ 1 := Real.abs_cos_le_one _
      obtain ⟨k1, -⟩ := hh_error 0 h0 (h2.trans hn) hx
      have he : 0 < 1 - e := by linarith
      rw [← mul_sub, ← mul_sub, abs_mul, abs_mul, abs_of_pos hb, abs_of_pos (show 0 < 1 / (1 - e) by positivity)]
      refine mul_le_mul_of_nonneg_left ?_ hb.le
      rw [one_div, inv_mul_le_iff₀ he]
      have : 0 ≤ e ^ 7 := by positivity
      nlinarith) s1 s2
  rw [mul_sub]
  exact k

theorem speed_ge (hb : 0 < b) (hab : b < a) (s : ℝ) : b ≤ speed a b alpha0 s := by
  apply Real.le_sqrt_of_sq_le
  have : 0 ≤ a ^ 2 - b ^ 2 := by nlinarith
  nlinarith [mul_nonneg this (sq_nonneg (Real.cos alpha0 * Real.sin s))]

theorem length_ge (hb : 0 < b) (hab : b < a) (s1 s2 : ℝ) : b * |s2 - s1| ≤ |pathLength a b alpha0 s1 s2| := by
  have key : ∀ u v : ℝ, u ≤ v → b * (v - u) ≤ ∫ s in u..v, speed a b alpha0 s := by
    intro u v huv
    have := intervalIntegral.integral_mono_on (μ := MeasureTheory.volume) huv ((continuous_const (y := b)).intervalIntegrable u v)
      ((speed_continuous (a := a) (b := b) (alpha0 := alpha0)).intervalIntegrable u v) (fun s _ => speed_ge hb hab s)
    simpa [mul_comm] using this
  unfold pathLength
  rcases le_total s1 s2 with h | h
  · rw [abs_of_nonneg (by linarith : 0 ≤ s2 - s1)]
    exact (key s1 s2 h).trans (le_abs_self _)
  · rw [intervalIntegral.integral_symm, abs_neg, abs_of_nonpos (by linarith : s2 - s1 ≤ 0), neg_sub]
    exact (key s2 s1 h).trans (le_abs_self _)

/-! ### Longitudes -/

/-- The longitude on the sphere, less a constant. -/
noncomputable def turn (alpha0 s1 s : ℝ) : ℝ := ∫ t in s1..s, Real.sin alpha0 / (1 - (Real.cos alpha0 * Real.sin t) ^ 2)

theorem turn_cont (h0 : Real.sin alpha0 ≠ 0) : Continuous fun t => Real.sin alpha0 / (1 - (Real.cos alpha0 * Real.sin t) ^ 2) :=
  Continuous.div (by fun_prop) (by fun_prop) (fun s => (small h0 s).ne')

theorem turn_spec (h0 : Real.sin alpha0 ≠ 0) (s1 s2 w1 : ℝ) (c1 : Real.sqrt (1 - (Real.cos alpha0 * Real.sin s1) ^ 2) * Real.cos w1 = Real.cos s1)
    (c2 : Real.sqrt (1 - (Real.cos alpha0 * Real.sin s1) ^ 2) * Real.sin w1 = Real.sin alpha0 * Real.sin s1) :
    Real.sqrt (1 - (Real.cos alpha0 * Real.sin s2) ^ 2) * Real.cos (w1 + turn alpha0 s1 s2) = Real.cos s2 ∧
    Real.sqrt (1 - (Real.cos alpha0 * Real.sin s2) ^ 2) * Real.sin (w1 + turn alpha0 s1 s2) = Real.sin alpha0 * Real.sin s2 := by
  have hr : ∀ s, 0 < Real.sqrt (1 - (Real.cos alpha0 * Real.sin s) ^ 2) := fun s => Real.sqrt_pos.2 (small h0 s)
  have dr : ∀ s, HasDerivAt (fun s => Real.sqrt (1 - (Real.cos alpha0 * Real.sin s) ^ 2))
      (-(Real.cos alpha0 ^ 2 * Real.sin s * Real.cos s) / Real.sqrt (1 - (Real.cos alpha0 * Real.sin s) ^ 2)) s := by
    intro s
    have d := ((((Real.hasDerivAt_sin s).const_mul (Real.cos alpha0)).pow 2).const_sub 1).sqrt (by simp only [Pi.pow_apply]; exact (small h0 s).ne')
    refine d.congr_deriv ?_
    simp only [Pi.pow_apply]
    have := (hr s).ne'
    push_cast
    field_simp
  have d1 : ∀ s, HasDerivAt (fun s => Real.cos s / Real.sqrt (1 - (Real.cos alpha0 * Real.sin s) ^ 2))
      (-(Real.sin alpha0 / (1 - (Real.cos alpha0 * Real.sin s) ^ 2)) * (Real.sin alpha0 * Real.sin s / Real.sqrt (1 - (Real.cos alpha0 * Real.sin s) ^ 2))) s := by
    intro s
    refine ((Real.hasDerivAt_cos s).div (dr s) (hr s).ne').congr_deriv ?_
    have r2 := Real.sq_sqrt (small h0 s).le
    have r0 := (hr s).ne'
    have sm := (small h0 s).ne'
    have t0 := Real.sin_sq_add_cos_sq alpha0
    have t1 := Real.sin_sq_add_cos_sq s
    rw [← r2] at sm ⊢
    rw [Real.sqrt_sq (hr s).le]
    generalize Real.sqrt (1 - (Real.cos alpha0 * Real.sin s) ^ 2) = r at *
    field_simp
    rw [r2]
    linear_combination Real.sin s * ((Real.cos alpha0 ^ 2) * t1 + t0)
  have d2 : ∀ s, HasDerivAt (fun s => Real.sin alpha0 * Real.sin s / Real.sqrt (1 - (Real.cos alpha0 * Real.sin s) ^ 2))
      (Real.sin alpha0 / (1 - (Real.cos alpha0 * Real.sin s) ^ 2) * (Real.cos s / Real.sqrt (1 - (Real.cos alpha0 * Real.sin s) ^ 2))) s := by
    intro s
    refine (((Real.hasDerivAt_sin s).const_mul (Real.sin alpha0)).div (dr s) (hr s).ne').congr_deriv ?_
    have r2 := Real.sq_sqrt (small h0 s).le
    have r0 := (hr s).ne'
    have sm := (small h0 s).ne'
    rw [← r2] at sm ⊢
    rw [Real.sqrt_sq (hr s).le]
    generalize Real.sqrt (1 - (Real.cos alpha0 * Real.sin s) ^ 2) = r at *
    field_simp
    rw [r2]
    ring
  have dW : ∀ s, HasDerivAt (turn alpha0 s1) (Real.sin alpha0 / (1 - (Real.cos alpha0 * Real.sin s) ^ 2)) s :=
    fun s => ((turn_cont h0).integral_hasStrictDerivAt s1 s).hasDerivAt
  have W0 : turn alpha0 s1 s1 = 0 := by simp [turn]
  have A := is_const_of_deriv_eq_zero (f := fun s => Real.cos s / Real.sqrt (1 - (Real.cos alpha0 * Real.sin s) ^ 2) * Real.cos (turn alpha0 s1 s)
      + Real.sin alpha0 * Real.sin s / Real.sqrt (1 - (Real.cos alpha0 * Real.sin s) ^ 2) * Real.sin (turn alpha0 s1 s))
    (fun s => (((d1 s).mul (dW s).cos).add ((d2 s).mul (dW s).sin)).differentiableAt)
    (fun s => Eq.trans (((d1 s).mul (dW s).cos).add ((d2 s).mul (dW s).sin)).deriv (by ring)) s2 s1
  have B := is_const_of_deriv_eq_zero (f := fun s => Real.sin alpha0 * Real.sin s / Real.sqrt (1 - (Real.cos alpha0 * Real.sin s) ^ 2) * Real.cos (turn alpha0 s1 s)
      - Real.cos s / Real.sqrt (1 - (Real.cos alpha0 * Real.sin s) ^ 2) * Real.sin (turn alpha0 s1 s))
    (fun s => (((d2 s).mul (dW s).cos).sub ((d1 s).mul (dW s).sin)).differentiableAt)
    (fun s => Eq.trans (((d2 s).mul (dW s).cos).sub ((d1 s).mul (dW s).sin)).deriv (by ring)) s2 s1
  simp only [W0, Real.cos_zero, Real.sin_zero, mul_one, mul_zero, add_zero, sub_zero] at A B
  rw [← c1, mul_div_cancel_left₀ _ (hr s1).ne'] at A
  rw [← c2, mul_div_cancel_left₀ _ (hr s1).ne'] at B
  have tw := Real.sin_sq_add_cos_sq (turn alpha0 s1 s2)
  have h2 := (hr s2).ne'
  generalize Real.sqrt (1 - (Real.cos alpha0 * Real.sin s2) ^ 2) = r at *
  generalize Real.sin alpha0 * Real.sin s2 = y at *
  generalize Real.cos s2 = x at *
  rw [Real.cos_add, Real.sin_add]
  generalize turn alpha0 s1 s2 = W at *
  rw [← A, ← B]
  constructor
  · field_simp
    linear_combination x * tw
  · field_simp
    linear_combination y * tw

/-- The part of the longitude that the code computes with the third series. -/
noncomputable def codeLon (n e s : ℝ) : ℝ := coefA3 n e * (s + sineSum s (coefC3 n e))

theorem codeLon_deriv (n e s : ℝ) : HasDerivAt (codeLon n e) (coefA3 n e * (1 + cosSumFrom s 0 (coefC3 n e))) s :=
  ((hasDerivAt_id s).add (sineSumFrom_deriv s (coefC3 n e) 0)).const_mul (coefA3 n e)

theorem lon_close (hb : 0 < b) (hab : b < a) (hn : (a - b) / (a + b) ≤ 1 / 10) (h0 : Real.sin alpha0 ≠ 0) (s1 s2 : ℝ) :
    |turn alpha0 s1 s2 - (a - b) / a * Real.sin alpha0 * (codeLon ((a - b) / (a + b)) (eps a b alpha0) s2 - codeLon ((a - b) / (a + b)) (eps a b alpha0) s1)
      - pathLongitude a b alpha0 s1 s2| ≤ 70 * ((a - b) / (a + b)) ^ 7 * |s2 - s1| := by
  have ha : 0 < a := hb.trans hab
  obtain ⟨e0, e1, e2, -⟩ := eps_spec (alpha0 := alpha0) hb hab
  have dW : ∀ s, HasDerivAt (turn alpha0 s1) (Real.sin alpha0 / (1 - (Real.cos alpha0 * Real.sin s) ^ 2)) s :=
    fun s => ((turn_cont h0).integral_hasStrictDerivAt s1 s).hasDerivAt
  have W0 : turn alpha0 s1 s1 = 0 := by simp [turn]
  have k := integral_close (F := fun s => turn alpha0 s1 s - (a - b) / a * Real.sin alpha0 * codeLon ((a - b) / (a + b)) (eps a b alpha0) s)
    (C := 70 * ((a - b) / (a + b)) ^ 7) (lonRate_continuous hb hab h0)
    (fun s => (dW s).sub ((codeLon_deriv _ _ s).const_mul ((a - b) / a * Real.sin alpha0))) (fun s => by
      rw [lonRate_eq hb hab h0, lon_rate, speed_eq hb hab]
      generalize eps a b alpha0 = e at *
      have hx : |Real.cos (2 * s)| ≤ 1 := Real.abs_cos_le_one _
      have g := gg_error e0 e2 hn hx
      have he : 1 - e ≠ 0 := by linarith
      have hr := Real.sqrt_nonneg (1 - 2 * e * Real.cos (2 * s) + e ^ 2)
      have hq : (a + b) / (a + b * (1 / (1 - e) * Real.sqrt (1 - 2 * e * Real.cos (2 * s) + e ^ 2))) =
          2 * (1 - e) / ((1 + (a - b) / (a + b)) * (1 - e) + (1 - (a - b) / (a + b)) * Real.sqrt (1 - 2 * e * Real.cos (2 * s) + e ^ 2)) := by
        generalize Real.sqrt (1 - 2 * e * Real.cos (2 * s) + e ^ 2) = r at *
        have he' : 0 < 1 - e := by linarith
        have p1 : 1 + (a - b) / (a + b) = 2 * a / (a + b) := by field_simp; ring
        have p2 : 1 - (a - b) / (a + b) = 2 * b / (a + b) := by field_simp; ring
        rw [p1, p2]
        have q1 : 0 < a * (1 - e) + b * r := by positivity
        have q2 : a + b * (1 / (1 - e) * r) = (a * (1 - e) + b * r) / (1 - e) := by field_simp
        have q3 : 2 * a / (a + b) * (1 - e) + 2 * b / (a + b) * r = 2 * (a * (1 - e) + b * r) / (a + b) := by field_simp
        rw [q2, q3]
        field_simp
      rw [hq]
      generalize Poly.Ex.eval ((a - b) / (a + b)) e (Real.cos (2 * s)) gg = G at *
      generalize 2 * (1 - e) / ((1 + (a - b) / (a + b)) * (1 - e) + (1 - (a - b) / (a + b)) * Real.sqrt (1 - 2 * e * Real.cos (2 * s) + e ^ 2)) = Q at *
      rw [show ∀ T u v w z : ℝ, T - u * v * w - (T - u * v * z) = -(u * v * (w - z)) from fun _ _ _ _ _ => by ring, abs_neg, abs_mul, abs_mul]
      have f0 : 0 ≤ (a - b) / a := div_nonneg (by linarith) ha.le
      have f1 : (a - b) / a ≤ 2 * ((a - b) / (a + b)) := by
        rw [← mul_div_assoc, div_le_div_iff₀ ha (by linarith)]
        nlinarith
      rw [abs_of_nonneg f0]
      have n0 : 0 ≤ (a - b) / (a + b) := div_nonneg (by linarith) (by linarith)
      generalize (a - b) / (a + b) = n at *
      calc (a - b) / a * |Real.sin alpha0| * |G - Q| ≤ 2 * n * 1 * (35 * n ^ 6) := by
            refine mul_le_mul (mul_le_mul f1 (Real.abs_sin_le_one _) (abs_nonneg _) (by positivity)) g (abs_nonneg _) (by positivity)
        _ = 70 * n ^ 7 := by ring) s1 s2
  simp only [W0] at k
  unfold pathLongitude
  convert k using 2
  ring

/-! ### C176 -/

/-- The arc at which the code ends. -/
noncomputable def endArc (a b alpha0 s1 d : ℝ) : ℝ :=
  let t := (b * codeArc (eps a b alpha0) s1 + d) / (b * coefA1 (eps a b alpha0))
  t + sineSum t (coefC1p (eps a b alpha0))

theorem A1_range {e : ℝ} (h0 : 0 ≤ e) (h1 : e ≤ 1 / 10) : 1 ≤ coefA1 e ∧ coefA1 e ≤ 9 / 8 := by
  unfold coefA1
  have he : 0 < 1 - e := by linarith
  have p2 : e ^ 2 ≤ (1 / 10) ^ 2 := pow_le_pow_left₀ h0 h1 2
  have p4 : e ^ 4 ≤ (1 / 10) ^ 4 := pow_le_pow_left₀ h0 h1 4
  have p6 : e ^ 6 ≤ (1 / 10) ^ 6 := pow_le_pow_left₀ h0 h1 6
  have q2 : 0 ≤ e ^ 2 := by positivity
  have q4 : 0 ≤ e ^ 4 := by positivity
  have q6 : 0 ≤ e ^ 6 := by positivity
  rw [one_div, ← div_eq_inv_mul, le_div_iff₀ he, div_le_iff₀ he]
  norm_num at p2 p4 p6
  constructor <;> linarith

/-- The arc at which the code ends belongs to the distance. -/
theorem end_close (hb : 0 < b) (hab : b < a) (hn : (a - b) / (a + b) ≤ 1 / 10) (s1 d : ℝ) :
    |pathLength a b alpha0 s1 (endArc a b alpha0 s1 d) - d| ≤ ((a - b) / (a + b)) ^ 7 * (17 * |d| + 285 * b) ∧
    b * |endArc a b alpha0 s1 d - s1| ≤ 1001 / 1000 * (|d| + b) := by
  obtain ⟨e0, e1, e2, -⟩ := eps_spec (alpha0 := alpha0) hb hab
  have k1 := arc_close (alpha0 := alpha0) hb hab hn s1 (endArc a b alpha0 s1 d)
  have k2 := length_ge (alpha0 := alpha0) hb hab s1 (endArc a b alpha0 s1 d)
  have A := A1_range e0 (e2.trans hn)
  have k3 := rev_error ((b * codeArc (eps a b alpha0) s1 + d) / (b * coefA1 (eps a b alpha0))) e0 (e2.trans hn)
  have hA : b * (codeArc (eps a b alpha0) (endArc a b alpha0 s1 d)) - (b * codeArc (eps a b alpha0) s1 + d) = b * coefA1 (eps a b alpha0) *
      ((b * codeArc (eps a b alpha0) s1 + d) / (b * coefA1 (eps a b alpha0))
        + sineSum ((b * codeArc (eps a b alpha0) s1 + d) / (b * coefA1 (eps a b alpha0))) (coefC1p (eps a b alpha0))
        + sineSum ((b * codeArc (eps a b alpha0) s1 + d) / (b * coefA1 (eps a b alpha0))
          + sineSum ((b * codeArc (eps a b alpha0) s1 + d) / (b * coefA1 (eps a b alpha0))) (coefC1p (eps a b alpha0))) (coefC1 (eps a b alpha0))
        - (b * codeArc (eps a b alpha0) s1 + d) / (b * coefA1 (eps a b alpha0))) := by
    rw [mul_sub, mul_div_cancel₀ _ (show b * coefA1 (eps a b alpha0) ≠ 0 by have := A.1; positivity)]
    show b * (coefA1 (eps a b alpha0) * _) - _ = _
    unfold endArc
    ring
  have k4 : |b * (codeArc (eps a b alpha0) (endArc a b alpha0 s1 d)) - (b * codeArc (eps a b alpha0) s1 + d)| ≤ b * (284 * eps a b alpha0 ^ 7) := by
    rw [hA, abs_mul, abs_of_pos (show 0 < b * coefA1 (eps a b alpha0) by have := A.1; positivity), mul_assoc]
    refine mul_le_mul_of_nonneg_left ?_ hb.le
    calc _ ≤ 9 / 8 * (252 * eps a b alpha0 ^ 7) := mul_le_mul A.2 k3 (abs_nonneg _) (by norm_num)
      _ ≤ 284 * eps a b alpha0 ^ 7 := by
        have : 0 ≤ eps a b alpha0 ^ 7 := by positivity
        linarith
  generalize endArc a b alpha0 s1 d = s2 at *
  generalize pathLength a b alpha0 s1 s2 = L at *
  generalize codeArc (eps a b alpha0) s2 = c2 at *
  generalize codeArc (eps a b alpha0) s1 = c1 at *
  clear hA k3 A
  have n0 : 0 ≤ (a - b) / (a + b) := e0.trans e2
  generalize eps a b alpha0 = e at *
  generalize (a - b) / (a + b) = n at *
  have q1 : e ^ 7 ≤ n ^ 7 := pow_le_pow_left₀ e0 e2 7
  have q2 : n ^ 7 ≤ (1 / 10) ^ 7 := pow_le_pow_left₀ n0 hn 7
  have q0 : 0 ≤ e ^ 7 := by positivity
  norm_num at q2
  generalize e ^ 7 = E at *
  generalize n ^ 7 = N at *
  have r1 : |L - d| ≤ b * (284 * E) + b * (16 * E) * |s2 - s1| := by
    have : L - d = (b * c2 - (b * c1 + d)) - (b * (c2 - c1) - L) := by ring
    rw [this]
    exact (abs_sub _ _).trans (add_le_add k4 k1)
  have r2 : |L| ≤ |d| + |L - d| := by
    calc |L| = |d + (L - d)| := by ring_nf
      _ ≤ |d| + |L - d| := abs_add_le _ _
  have r3 : b * (16 * E) * |s2 - s1| ≤ 16 * E * (|d| + |L - d|) := by
    calc b * (16 * E) * |s2 - s1| = 16 * E * (b * |s2 - s1|) := by ring
      _ ≤ 16 * E * (|d| + |L - d|) := mul_le_mul_of_nonneg_left (k2.trans r2) (by linarith)
  have r4 : 16 * E * |L - d| ≤ 1 / 1000 * |L - d| := mul_le_mul_of_nonneg_right (by linarith) (abs_nonneg _)
  have d0 := abs_nonneg d
  have r5 : |L - d| * (999 / 1000) ≤ E * (284 * b + 16 * |d|) := by
    have u1 : 16 * E * (|d| + |L - d|) = 16 * E * |d| + 16 * E * |L - d| := by ring
    have u2 : E * (284 * b + 16 * |d|) = b * (284 * E) + 16 * E * |d| := by ring
    linarith
  have r6 : E * (284 * b + 16 * |d|) ≤ N * (284 * b + 16 * |d|) := mul_le_mul_of_nonneg_right q1 (by positivity)
  have N0 : 0 ≤ N := q0.trans q1
  have r7 : |L - d| ≤ N * (17 * |d| + 285 * b) := by
    nlinarith [mul_nonneg N0 d0, mul_nonneg N0 hb.le]
  refine ⟨r7, ?_⟩
  have r8 : N * (17 * |d| + 285 * b) ≤ 1 / 10000000 * (17 * |d| + 285 * b) := mul_le_mul_of_nonneg_right q2 (by positivity)
  linarith

theorem forward_eq {y az b1 s1 s2 w1 w2 b2 lam : ℝ} (x d : ℝ) (hb : 0 < b) (hab : b < a) (hb1 : b1 = Real.arctan (b / a * Real.tan (rad y)))
    (h0 : alpha0 = alphaZero (rad az) b1) (hs1 : s1 = neaSigma (rad az) b1) (hw1 : w1 = neaOmega alpha0 s1) (hs2 : s2 = endArc a b alpha0 s1 d)
    (hw2 : w2 = atan2 (Real.sin alpha0 * Real.sin s2) (Real.cos s2))
    (hb2 : b2 = atan2 (Real.cos alpha0 * Real.sin s2) (Real.sqrt ((Real.cos alpha0 * Real.cos s2) ^ 2 + Real.sin alpha0 ^ 2)))
    (hlam : lam = (w2 - (a - b) / a * Real.sin alpha0 * codeLon ((a - b) / (a + b)) (eps a b alpha0) s2)
      - (w1 - (a - b) / a * Real.sin alpha0 * codeLon ((a - b) / (a + b)) (eps a b alpha0) s1)) :
    ellipsoidalForward a b x y az d = (pyModR ((open Classical in if 180 ≤ x + lam * 180 / Real.pi then
      x + lam * 180 / Real.pi - 360 else x + lam * 180 / Real.pi) + 180) 360 - 180,
      Real.arctan (Real.tan b2 / (b / a)) * 180 / Real.pi,
      pyModR ((azimuthAt alpha0 s2 + Real.pi) * 180 / Real.pi + 180) 360 - 180) := by
  have ha : 0 < a := hb.trans hab
  have f1 : 1 - (a - b) / a = b / a := by field_simp; ring
  have f2 : (a - b) / a * (2 - (a - b) / a) / (1 - (a - b) / a * (2 - (a - b) / a)) = (a ^ 2 - b ^ 2) / b ^ 2 := by
    have : 1 - (a - b) / a * (2 - (a - b) / a) = (b / a) ^ 2 := by field_simp; ring
    rw [this]; field_simp; ring
  have f3 : (a - b) / a / (2 - (a - b) / a) = (a - b) / (a + b) := by
    have : 2 - (a - b) / a = (a + b) / a := by field_simp; ring
    rw [this]; field_simp
  have ht : (coefA1 (eps a b alpha0) * (s1 + sineSum s1 (coefC1 (eps a b alpha0))) * b + d) / (b * coefA1 (eps a b alpha0)) =
      (b * codeArc (eps a b alpha0) s1 + d) / (b * coefA1 (eps a b alpha0)) := by unfold codeArc; ring
  have hs2' : s2 = (b * codeArc (eps a b alpha0) s1 + d) / (b * coefA1 (eps a b alpha0))
    + sineSum ((b * codeArc (eps a b alpha0) s1 + d) / (b * coefA1 (eps a b alpha0))) (coefC1p (eps a b alpha0)) := hs2
  have l1 : coefA3 ((a - b) / (a + b)) (eps a b alpha0) * (s1 + sineSum s1 (coefC3 ((a - b) / (a + b)) (eps a b alpha0))) =
      codeLon ((a - b) / (a + b)) (eps a b alpha0) s1 := rfl
  have l2 : coefA3 ((a - b) / (a + b)) (eps a b alpha0) * (s2 + sineSum s2 (coefC3 ((a - b) / (a + b)) (eps a b alpha0))) =
      codeLon ((a - b) / (a + b)) (eps a b alpha0) s2 := rfl
  have l3 : atan2 (Real.sin alpha0) (Real.cos alpha0 * Real.cos s2) = azimuthAt alpha0 s2 := rfl
  unfold ellipsoidalForward
  dsimp only
  rw [show Real.pi * y / 180 = rad y from rfl, show Real.pi * az / 180 = rad az from rfl, f1, f2, f3, ← hb1, ← h0, ← hs1, ← hw1,
    show epsOf ((a ^ 2 - b ^ 2) / b ^ 2 * Real.cos alpha0 ^ 2) = eps a b alpha0 from rfl, ht, ← hs2', ← hw2, ← hb2, l1, l2, l3, ← hlam]

/-- C176.  On an ellipsoid whose third flattening `n` is at most a tenth, the forward problem leads to a point of the geodesic that leaves the start with
the given azimuth: the latitude is that of the point at the arc `s2`, the back azimuth points back along the geodesic there, the length of the
geodesic up to this point is the given distance up to an error of the seventh order in `n`, and the longitude is that of the point up to an error of
the seventh order. -/
theorem C176_forward {a b x y az d : ℝ} (hb : 0 < b) (hab : b < a) (hn : (a - b) / (a + b) ≤ 1 / 10) (hy1 : -90 < y) (hy2 : y < 90)
    (haz : Real.sin (rad az) ≠ 0) : ∃ alpha0 s1 s2 : ℝ, ∃ i j k : ℤ, Real.sin alpha0 ≠ 0 ∧
      latitude a b alpha0 s1 = rad y ∧ azimuthAt alpha0 s1 = rad az + 2 * Real.pi * i ∧
      latitude a b alpha0 s2 = rad (ellipsoidalForward a b x y az d).2.1 ∧
      azimuthAt alpha0 s2 + Real.pi = rad (ellipsoidalForward a b x y az d).2.2 + 2 * Real.pi * j ∧
      |pathLength a b alpha0 s1 s2 - d| ≤ ((a - b) / (a + b)) ^ 7 * (17 * |d| + 285 * b) ∧
      |rad x + pathLongitude a b alpha0 s1 s2 - (rad (ellipsoidalForward a b x y az d).1 + 2 * Real.pi * k)| ≤
        ((a - b) / (a + b)) ^ 7 * (71 * (|d| / b + 1)) := by
  have ha : 0 < a := hb.trans hab
  have hpi := Real.pi_pos
  obtain ⟨b1, hb1⟩ : ∃ b1, b1 = Real.arctan (b / a * Real.tan (rad y)) := ⟨_, rfl⟩
  have cb1 : 0 < Real.cos b1 := by rw [hb1]; exact Real.cos_arctan_pos _
  have N1 := node_ok b1 (rad az) cb1.le
  obtain ⟨alpha0, h0⟩ : ∃ z, z = alphaZero (rad az) b1 := ⟨_, rfl⟩
  obtain ⟨s1, hs1⟩ : ∃ z, z = neaSigma (rad az) b1 := ⟨_, rfl⟩
  rw [← h0, ← hs1] at N1
  have sa : Real.sin alpha0 ≠ 0 := by rw [N1.s0]; exact mul_ne_zero haz cb1.ne'
  obtain ⟨s2, hs2⟩ : ∃ z, z = endArc a b alpha0 s1 d := ⟨_, rfl⟩
  obtain ⟨cj, cj0, N2⟩ := node_dest alpha0 s2 N1.c0
  have jpos : 0 < Real.sqrt ((Real.cos alpha0 * Real.cos s2) ^ 2 + Real.sin alpha0 ^ 2) := Real.sqrt_pos.2 (by positivity)
  obtain ⟨w1, hw1⟩ : ∃ z, z = neaOmega alpha0 s1 := ⟨_, rfl⟩
  rw [← hw1] at N1
  obtain ⟨w2, hw2⟩ : ∃ z, z = atan2 (Real.sin alpha0 * Real.sin s2) (Real.cos s2) := ⟨_, rfl⟩
  obtain ⟨b2, hb2⟩ : ∃ z, z = atan2 (Real.cos alpha0 * Real.sin s2) (Real.sqrt ((Real.cos alpha0 * Real.cos s2) ^ 2 + Real.sin alpha0 ^ 2)) := ⟨_, rfl⟩
  rw [← hb2, ← hw2] at N2
  rw [← hb2] at cj cj0
  obtain ⟨lam, hlam⟩ : ∃ z, z = (w2 - (a - b) / a * Real.sin alpha0 * codeLon ((a - b) / (a + b)) (eps a b alpha0) s2)
    - (w1 - (a - b) / a * Real.sin alpha0 * codeLon ((a - b) / (a + b)) (eps a b alpha0) s1) := ⟨_, rfl⟩
  have key := forward_eq x d hb hab hb1 h0 hs1 hw1 hs2 hw2 hb2 hlam
  obtain ⟨k1, hk1, -, -⟩ := fold_cong (x + lam * 180 / Real.pi)
  obtain ⟨k2, hk2⟩ := pyModR_cong ((azimuthAt alpha0 s2 + Real.pi) * 180 / Real.pi + 180) 360
  obtain ⟨i, hi⟩ := atan2_polar_cong cb1 (rad az)
  have cosb1 : Real.sqrt (1 - (Real.cos alpha0 * Real.sin s1) ^ 2) = Real.cos b1 := by
    rw [N1.z, ← Real.abs_cos_eq_sqrt_one_sub_sin_sq, abs_of_pos cb1]
  obtain ⟨t1, t2⟩ := turn_spec sa s1 s2 w1 (by rw [cosb1]; exact N1.cw) (by rw [cosb1]; exact N1.sw)
  have rpos : 0 < Real.sqrt (1 - (Real.cos alpha0 * Real.sin s2) ^ 2) := Real.sqrt_pos.2 (small sa s2)
  obtain ⟨k3, hk3⟩ := atan2_polar_cong rpos (w1 + turn alpha0 s1 s2)
  rw [t1, t2, ← hw2] at hk3
  obtain ⟨c1, c2⟩ := end_close (alpha0 := alpha0) hb hab hn s1 d
  rw [← hs2] at c1 c2
  have c3 := lon_close hb hab hn sa s1 s2
  refine ⟨alpha0, s1, s2, i, -k2, -(k1 + k3), sa, ?_, ?_, ?_, ?_, c1, ?_⟩
  · refine node_latitude hb hab N1 ?_ hb1
    rw [abs_lt]; unfold rad; constructor <;> nlinarith
  · rw [← hi]
    unfold azimuthAt
    rw [N1.s0, N1.n, mul_comm (Real.sin (rad az)), mul_comm (Real.cos (rad az))]
  · rw [key]
    dsimp only
    rw [rad_back]
    unfold latitude reduced
    rw [N2.z]
    have hr : -(Real.pi / 2) < b2 ∧ b2 < Real.pi / 2 := by
      rw [hb2]
      exact abs_lt.1 (Complex.abs_arg_lt_pi_div_two_iff.mpr (Or.inl jpos))
    rw [Real.arcsin_sin hr.1.le hr.2.le]
    congr 1
    field_simp
  · rw [key]
    dsimp only
    rw [hk2]
    unfold rad
    push_cast
    field_simp
    ring
  · rw [key]
    dsimp only
    rw [hk1]
    have e1 : rad x + pathLongitude a b alpha0 s1 s2 - (rad (x + lam * 180 / Real.pi + 360 * k1) + 2 * Real.pi * ((-(k1 + k3) : ℤ) : ℝ)) =
        -(turn alpha0 s1 s2 - (a - b) / a * Real.sin alpha0 * (codeLon ((a - b) / (a + b)) (eps a b alpha0) s2
          - codeLon ((a - b) / (a + b)) (eps a b alpha0) s1) - pathLongitude a b alpha0 s1 s2) := by
      have e2 : rad (x + lam * 180 / Real.pi + 360 * k1) = rad x + lam + 2 * Real.pi * k1 := by unfold rad; field_simp; ring
      rw [e2, hlam, hk3]
      push_cast
      ring
    rw [e1, abs_neg]
    refine c3.trans ?_
    have n0 : 0 ≤ (a - b) / (a + b) := div_nonneg (by linarith) (by linarith)
    have c4 : |s2 - s1| ≤ 1001 / 1000 * (|d| / b + 1) := by
      have : |d| / b + 1 = (|d| + b) / b := by field_simp
      rw [this, ← mul_div_assoc, le_div_iff₀ hb, mul_comm]
      exact c2
    have d0 : 0 ≤ |d| / b := by positivity
    have N0 : 0 ≤ ((a - b) / (a + b)) ^ 7 := by positivity
    calc 70 * ((a - b) / (a + b)) ^ 7 * |s2 - s1| = ((a - b) / (a + b)) ^ 7 * (70 * |s2 - s1|) := by ring
      _ ≤ _ := mul_le_mul_of_nonneg_left (by linarith only [c4, d0]) N0

/-- C176.  The curve of the specification is a geodesic and its length is measured along it: its direction on the ellipsoid has the azimuth and the
speed of the specification, and the radius of the parallel times the sine of the azimuth is the same everywhere (Clairaut's relation).  `Q` is the root
in the two radii of curvature. -/
theorem C176_geodesic {a b alpha0 : ℝ} (hb : 0 < b) (hab : b < a) (h0 : Real.sin alpha0 ≠ 0) (s : ℝ) : ∃ rate Q : ℝ,
    HasDerivAt (latitude a b alpha0) rate s ∧ 0 < speed a b alpha0 s ∧ 0 < Q ∧
      Q ^ 2 = a ^ 2 * Real.cos (latitude a b alpha0 s) ^ 2 + b ^ 2 * Real.sin (latitude a b alpha0 s) ^ 2 ∧
      a ^ 2 * b ^ 2 / Q ^ 3 * rate = speed a b alpha0 s * Real.cos (azimuthAt alpha0 s) ∧
      a ^ 2 * Real.cos (latitude a b alpha0 s) / Q * lonRate a b alpha0 s = speed a b alpha0 s * Real.sin (azimuthAt alpha0 s) ∧
      a ^ 2 * Real.cos (latitude a b alpha0 s) / Q * Real.sin (azimuthAt alpha0 s) = a * Real.sin alpha0 := by
  have ha : 0 < a := hb.trans hab
  have hx0 := small h0 s
  have t0 := Real.sin_sq_add_cos_sq alpha0
  have t1 := Real.sin_sq_add_cos_sq s
  obtain ⟨x, hx⟩ : ∃ x, x = Real.cos alpha0 * Real.sin s := ⟨_, rfl⟩
  rw [← hx] at hx0
  obtain ⟨c, hc⟩ : ∃ c, c = Real.sqrt (1 - x ^ 2) := ⟨_, rfl⟩
  have c0 : 0 < c := by rw [hc]; exact Real.sqrt_pos.2 hx0
  have c2 : c ^ 2 = 1 - x ^ 2 := by rw [hc]; exact Real.sq_sqrt hx0.le
  obtain ⟨g, hg⟩ : ∃ g, g = Real.sqrt (b ^ 2 * c ^ 2 + a ^ 2 * x ^ 2) := ⟨_, rfl⟩
  have gp : 0 < b ^ 2 * c ^ 2 + a ^ 2 * x ^ 2 := by positivity
  have g0 : 0 < g := by rw [hg]; exact Real.sqrt_pos.2 gp
  have g2 : g ^ 2 = b ^ 2 * c ^ 2 + a ^ 2 * x ^ 2 := by rw [hg]; exact Real.sq_sqrt gp.le
  have lat : latitude a b alpha0 s = Real.arctan (a * x / (b * c)) := by
    unfold latitude reduced
    rw [← hx, Real.tan_arcsin, ← hc]
    congr 1
    field_simp
  have root : Real.sqrt (1 + (a * x / (b * c)) ^ 2) = g / (b * c) := by
    rw [Real.sqrt_eq_iff_eq_sq (by positivity) (by positivity), div_pow, div_pow, g2]
    field_simp
  have cl : Real.cos (latitude a b alpha0 s) = b * c / g := by rw [lat, Real.cos_arctan, root]; field_simp
  have sl : Real.sin (latitude a b alpha0 s) = a * x / g := by rw [lat, Real.sin_arctan, root]; field_simp
  have nrm : (Real.cos alpha0 * Real.cos s) ^ 2 + Real.sin alpha0 ^ 2 = c ^ 2 := by
    rw [c2, hx]
    linear_combination t0 + Real.cos alpha0 ^ 2 * t1
  obtain ⟨a1, a2⟩ := atan2_of_norm nrm c0.le
  have ca : Real.cos (azimuthAt alpha0 s) = Real.cos alpha0 * Real.cos s / c := by
    rw [eq_div_iff c0.ne', mul_comm]; exact a1
  have sa : Real.sin (azimuthAt alpha0 s) = Real.sin alpha0 / c := by
    rw [eq_div_iff c0.ne', mul_comm]; exact a2
  have rate : lonRate a b alpha0 s = Real.sin alpha0 / c ^ 2 * (g / a) := by
    unfold lonRate reduced
    rw [← hx, Real.cos_arcsin, ← hc]
    congr 1
    rw [Real.sqrt_eq_iff_eq_sq _ (by positivity), div_pow, g2]
    · field_simp
      rw [c2]; ring
    · have : 1 - (a ^ 2 - b ^ 2) / a ^ 2 * c ^ 2 = (g / a) ^ 2 := by
        rw [div_pow, g2]; field_simp; rw [c2]; ring
      rw [this]; positivity
  have dl : HasDerivAt (latitude a b alpha0) (a * b * (Real.cos alpha0 * Real.cos s) / (g ^ 2 * c)) s := by
    have e : latitude a b alpha0 = fun s => Real.arctan (a / b * (Real.cos alpha0 * Real.sin s / Real.sqrt (1 - (Real.cos alpha0 * Real.sin s) ^ 2))) := by
      funext t
      unfold latitude reduced
      rw [Real.tan_arcsin]
    rw [e]
    have dx := (Real.hasDerivAt_sin s).const_mul (Real.cos alpha0)
    have dc := ((dx.pow 2).const_sub 1).sqrt (by simp only [Pi.pow_apply]; rw [← hx]; exact hx0.ne')
    have d := ((dx.div dc (by simp only [Pi.pow_apply]; rw [← hx, ← hc]; exact c0.ne')).const_mul (a / b)).arctan
    refine d.congr_deriv ?_
    simp only [Pi.pow_apply, Pi.div_apply]
    rw [← hx, ← hc]
    rw [show 1 + (a / b * (x / c)) ^ 2 = g ^ 2 / (b * c) ^ 2 by rw [g2]; field_simp]
    have xx : x ^ 2 = 1 - c ^ 2 := by linarith
    push_cast
    field_simp
    linear_combination (Real.cos alpha0 * Real.cos s) * xx
  have sp : speed a b alpha0 s = g := by
    unfold speed
    rw [hg, ← hx, c2]
    congr 1; ring
  rw [sp]
  refine ⟨_, a * b / g, dl, g0, by positivity, ?_, ?_, ?_, ?_⟩
  · rw [cl, sl]
    field_simp
    rw [c2]; ring
  · rw [ca]; field_simp
  · rw [cl, rate, sa]; field_simp
  · rw [cl, sa]; field_simp

/-- C176.  On the ellipsoid of WGS84 and up to twenty thousand kilometres, the distance is right to a nanometre and the longitude to `10 ^ (-16)`
radians. -/
theorem C176_earth {x y az d : ℝ} (hd : |d| ≤ 20000000) (hy1 : -90 < y) (hy2 : y < 90) (haz : Real.sin (rad az) ≠ 0) :
    ∃ alpha0 s1 s2 : ℝ, ∃ i j k : ℤ, Real.sin alpha0 ≠ 0 ∧
      latitude 6378137 6356752.314245 alpha0 s1 = rad y ∧ azimuthAt alpha0 s1 = rad az + 2 * Real.pi * i ∧
      latitude 6378137 6356752.314245 alpha0 s2 = rad (ellipsoidalForward 6378137 6356752.314245 x y az d).2.1 ∧
      azimuthAt alpha0 s2 + Real.pi = rad (ellipsoidalForward 6378137 6356752.314245 x y az d).2.2 + 2 * Real.pi * j ∧
      |pathLength 6378137 6356752.314245 alpha0 s1 s2 - d| ≤ 1 / 10 ^ 9 ∧
      |rad x + pathLongitude 6378137 6356752.314245 alpha0 s1 s2 - (rad (ellipsoidalForward 6378137 6356752.314245 x y az d).1 + 2 * Real.pi * k)| ≤
        1 / 10 ^ 16 := by
  obtain ⟨alpha0, s1, s2, i, j, k, h0, h1, h2, h3, h4, h5, h6⟩ := C176_forward (a := 6378137) (b := 6356752.314245) (x := x) (d := d)
    (by norm_num) (by norm_num) (by norm_num) hy1 hy2 haz
  refine ⟨alpha0, s1, s2, i, j, k, h0, h1, h2, h3, h4, h5.trans ?_, h6.trans ?_⟩
  · calc _ ≤ (((6378137 : ℝ) - 6356752.314245) / (6378137 + 6356752.314245)) ^ 7 * (17 * 20000000 + 285 * 6356752.314245) := by
          refine mul_le_mul_of_nonneg_left (by linarith) (by norm_num)
      _ ≤ _ := by norm_num
  · have : |d| / 6356752.314245 ≤ 4 := by rw [div_le_iff₀ (by norm_num)]; linarith
    calc _ ≤ (((6378137 : ℝ) - 6356752.314245) / (6378137 + 6356752.314245)) ^ 7 * (71 * (4 + 1)) := by
          refine mul_le_mul_of_nonneg_left (by linarith) (by norm_num)
      _ ≤ _ := by norm_num

/-- The hypotheses of `C176_forward` are met: eastward from sixty degrees north. -/
example : ∃ alpha0 s1 s2 : ℝ, |pathLength 11 10 alpha0 s1 s2 - 5| ≤ ((11 - 10 : ℝ) / (11 + 10)) ^ 7 * (17 * |5| + 285 * 10) := by
  obtain ⟨alpha0, s1, s2, -, -, -, -, -, -, -, -, h, -⟩ := C176_forward (a := 11) (b := 10) (x := 0) (y := 60) (az := 90) (d := 5) (by norm_num)
    (by norm_num) (by norm_num) (by norm_num) (by norm_num) (by
      have : rad 90 = Real.pi / 2 := by unfold rad; ring
      rw [this, Real.sin_pi_div_two]; norm_num)
  exact ⟨alpha0, s1, s2, h⟩

end Karta.Geod.ForwardSeries
