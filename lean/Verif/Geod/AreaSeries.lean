import Verif.Geod.EllAreaProps
import Mathlib.Analysis.SpecialFunctions.Arsinh
import Mathlib.MeasureTheory.Integral.IntervalIntegral.FundThmCalculus
import Mathlib.Analysis.SpecialFunctions.Trigonometric.ArctanDeriv

/-!
# Areas on an ellipsoid are areas

The area that `_ellipsoidal_area` (karta/geodesy.py 637-693; the model is `ellAreaCore` in `Verif.Geod.EllArea`) assigns to a side is compared
with the area between a geodesic and the equator (C175).
-/

namespace Karta.Geod.AreaSeries
open Karta Karta.Geod Karta.Geod.Sphere Karta.Geod.Geodesic

/-- The polynomial in the integrand. -/
noncomputable def quot (u v : ℝ) : ℝ :=
  4 / 3 - 2 / 15 * (u + v) + 8 / 105 * (u ^ 2 + u * v + v ^ 2) - 16 / 315 * (u ^ 3 + u ^ 2 * v + u * v ^ 2 + v ^ 3)
    + 128 / 3465 * (u ^ 4 + u ^ 3 * v + u ^ 2 * v ^ 2 + u * v ^ 3 + v ^ 4)
    - 256 / 9009 * (u ^ 5 + u ^ 4 * v + u ^ 3 * v ^ 2 + u ^ 2 * v ^ 3 + u * v ^ 4 + v ^ 5)

theorem sin_step (s m : ℝ) : Real.sin ((m + 2) * s) = 2 * (1 - 2 * Real.sin s ^ 2) * Real.sin (m * s) - Real.sin ((m - 2) * s) := by
  have h1 : (m + 2) * s = m * s + 2 * s := by ring
  have h2 : (m - 2) * s = m * s - 2 * s := by ring
  have h3 := Real.sin_sq_add_cos_sq s
  rw [h1, h2, Real.sin_add, Real.sin_sub, Real.cos_two_mul]
  have : Real.cos s ^ 2 = 1 - Real.sin s ^ 2 := by linarith
  rw [this]; ring

theorem sin3 (s : ℝ) : Real.sin (3 * s) = 3 * Real.sin s - 4 * Real.sin s ^ 3 := Real.sin_three_mul s
theorem sin5 (s : ℝ) : Real.sin (5 * s) = 5 * Real.sin s - 20 * Real.sin s ^ 3 + 16 * Real.sin s ^ 5 := by
  have := sin_step s 3
  norm_num at this
  rw [this, sin3]; ring
theorem sin7 (s : ℝ) : Real.sin (7 * s) = 7 * Real.sin s - 56 * Real.sin s ^ 3 + 112 * Real.sin s ^ 5 - 64 * Real.sin s ^ 7 := by
  have := sin_step s 5
  norm_num at this
  rw [this, sin3, sin5]; ring
theorem sin9 (s : ℝ) : Real.sin (9 * s) = 9 * Real.sin s - 120 * Real.sin s ^ 3 + 432 * Real.sin s ^ 5 - 576 * Real.sin s ^ 7 + 256 * Real.sin s ^ 9 := by
  have := sin_step s 7
  norm_num at this
  rw [this, sin5, sin7]; ring
theorem sin11 (s : ℝ) : Real.sin (11 * s) = 11 * Real.sin s - 220 * Real.sin s ^ 3 + 1232 * Real.sin s ^ 5 - 2816 * Real.sin s ^ 7 + 2816 * Real.sin s ^ 9
    - 1024 * Real.sin s ^ 11 := by
  have := sin_step s 9
  norm_num at this
  rw [this, sin7, sin9]; ring

theorem series_deriv (u k s : ℝ) : HasDerivAt (fun s => cosineSumFrom s 0 (coefC4 u k))
    (-(Real.sin s / 2 * quot u (k * Real.sin s ^ 2)) + 10 / 9009 * u ^ 3 * k ^ 2 * Real.sin s) s := by
  have d : ∀ c m : ℝ, HasDerivAt (fun s => c * Real.cos (m * s)) (-(c * m * Real.sin (m * s))) s := by
    intro c m
    have h := (((hasDerivAt_id s).const_mul m).cos).const_mul c
    simp only [id, mul_one] at h
    exact h.congr_deriv (by ring)
  have h := (d (coefC40 u k) 1).add ((d (coefC41 u k) 3).add ((d (coefC42 u k) 5).add ((d (coefC43 u k) 7).add ((d (coefC44 u k) 9).add (d (k ^ 5 / 792792) 11)))))
  have e : (fun s => cosineSumFrom s 0 (coefC4 u k)) = ((fun s => coefC40 u k * Real.cos (1 * s)) + ((fun s => coefC41 u k * Real.cos (3 * s)) +
      ((fun s => coefC42 u k * Real.cos (5 * s)) + ((fun s => coefC43 u k * Real.cos (7 * s)) + ((fun s => coefC44 u k * Real.cos (9 * s)) + (fun s => k ^ 5 / 792792 * Real.cos (11 * s))))))) := by
    funext t
    simp only [coefC4, cosineSumFrom, Pi.add_apply]
    norm_num
  rw [e]
  refine h.congr_deriv ?_
  rw [sin3, sin5, sin7, sin9, sin11, one_mul]
  unfold quot coefC40 coefC41 coefC42 coefC43 coefC44
  ring

/-! ### The function in the integrand -/

/-- `sqrt (1 + s ^ 2) * arsinh s / s`. -/
noncomputable def wfun (s : ℝ) : ℝ := if s = 0 then 1 else Real.sqrt (1 + s ^ 2) * Real.arsinh s / s

/-- Its Taylor polynomial, as a function of the square of `s`. -/
noncomputable def wpoly (x : ℝ) : ℝ :=
  1 + x / 3 - 2 / 15 * x ^ 2 + 8 / 105 * x ^ 3 - 16 / 315 * x ^ 4 + 128 / 3465 * x ^ 5 - 256 / 9009 * x ^ 6

/-- The remainder without the factor `sqrt (1 + s ^ 2) / s`. -/
noncomputable def rem (s : ℝ) : ℝ := Real.arsinh s - s * wpoly (s ^ 2) / Real.sqrt (1 + s ^ 2)

theorem root_pos (s : ℝ) : 0 < Real.sqrt (1 + s ^ 2) := Real.sqrt_pos.2 (by positivity)
theorem root_sq (s : ℝ) : Real.sqrt (1 + s ^ 2) ^ 2 = 1 + s ^ 2 := Real.sq_sqrt (by positivity)
theorem root_deriv (s : ℝ) : HasDerivAt (fun s => Real.sqrt (1 + s ^ 2)) (s / Real.sqrt (1 + s ^ 2)) s := by
  have h : HasDerivAt (fun s : ℝ => 1 + s ^ 2) (2 * s) s := by
    have := ((hasDerivAt_id s).pow 2).const_add 1
    exact this.congr_deriv (by simp)
  exact (h.sqrt (by positivity)).congr_deriv (by field_simp)

theorem rem_deriv (s : ℝ) : HasDerivAt rem (3072 / 9009 * s ^ 14 / Real.sqrt (1 + s ^ 2) ^ 3) s := by
  have hp : HasDerivAt (fun s : ℝ => s * wpoly (s ^ 2)) (1 + s ^ 2 - 2 / 3 * s ^ 4 + 8 / 15 * s ^ 6 - 16 / 35 * s ^ 8 + 128 / 315 * s ^ 10 - 256 / 693 * s ^ 12) s := by
    have d : ∀ (c : ℝ) (n : ℕ), HasDerivAt (fun s : ℝ => c * s ^ n) (c * (n * s ^ (n - 1))) s := fun c n => (hasDerivAt_pow n s).const_mul c
    have h := (d 1 1).add ((d (1 / 3) 3).add ((d (-(2 / 15)) 5).add ((d (8 / 105) 7).add ((d (-(16 / 315)) 9).add ((d (128 / 3465) 11).add (d (-(256 / 9009)) 13))))))
    have e : (fun s : ℝ => s * wpoly (s ^ 2)) = ((fun s : ℝ => 1 * s ^ 1) + ((fun s : ℝ => 1 / 3 * s ^ 3) + ((fun s : ℝ => -(2 / 15) * s ^ 5) + ((fun s : ℝ => 8 / 105 * s ^ 7) +
        ((fun s : ℝ => -(16 / 315) * s ^ 9) + ((fun s : ℝ => 128 / 3465 * s ^ 11) + (fun s : ℝ => -(256 / 9009) * s ^ 13))))))) := by
      funext t
      simp only [wpoly, Pi.add_apply]
      ring
    rw [e]
    refine h.congr_deriv ?_
    norm_num
    ring
  have h := (Real.hasDerivAt_arsinh s).sub (hp.div (root_deriv s) (root_pos s).ne')
  refine h.congr_deriv ?_
  have r0 := (root_pos s).ne'
  have r2 := root_sq s
  unfold wpoly
  set r := Real.sqrt (1 + s ^ 2)
  field_simp
  ring_nf
  simp only [r2]
  ring

theorem rem_zero : rem 0 = 0 := by simp [rem]

theorem rem_nonneg {s : ℝ} (h : 0 ≤ s) : 0 ≤ rem s := by
  have m : Monotone rem := monotone_of_deriv_nonneg (fun x => (rem_deriv x).differentiableAt) (fun x => by
    rw [(rem_deriv x).deriv]
    have := root_pos x
    have := Even.pow_nonneg (⟨7, rfl⟩ : Even 14) x
    positivity)
  have := m h
  rwa [rem_zero] at this

theorem rem_le {s : ℝ} (h : 0 ≤ s) : rem s ≤ 3072 / 9009 / 15 * s ^ 15 / Real.sqrt (1 + s ^ 2) := by
  have d : ∀ x : ℝ, HasDerivAt (fun s => 3072 / 9009 / 15 * s ^ 15 / Real.sqrt (1 + s ^ 2) - rem s)
      (3072 / 9009 * (14 / 15) * x ^ 16 / Real.sqrt (1 + x ^ 2) ^ 3) x := by
    intro x
    have h := (((hasDerivAt_pow 15 x).const_mul (3072 / 9009 / 15 : ℝ)).div (root_deriv x) (root_pos x).ne').sub (rem_deriv x)
    refine h.congr_deriv ?_
    have r0 := (root_pos x).ne'
    have r2 := root_sq x
    set r := Real.sqrt (1 + x ^ 2)
    field_simp
    norm_num
    ring_nf
    simp only [r2]
    ring
  have m : Monotone (fun s => 3072 / 9009 / 15 * s ^ 15 / Real.sqrt (1 + s ^ 2) - rem s) :=
    monotone_of_deriv_nonneg (fun x => (d x).differentiableAt) (fun x => by
      rw [(d x).deriv]
      have := root_pos x
      have := Even.pow_nonneg (⟨8, rfl⟩ : Even 16) x
      positivity)
  have := m h
  simp only [rem_zero] at this
  norm_num at this ⊢
  linarith

/-- The remainder. -/
theorem wfun_rem {s : ℝ} (h : s ≠ 0) : wfun s - wpoly (s ^ 2) = Real.sqrt (1 + s ^ 2) / s * rem s := by
  have r0 := (root_pos s).ne'
  unfold wfun rem
  rw [if_neg h]
  field_simp

theorem wfun_deriv {s : ℝ} (h : 0 < s) : HasDerivAt (fun s => Real.sqrt (1 + s ^ 2) / s * rem s)
    (3072 / 9009 * s ^ 13 / (1 + s ^ 2) - rem s / (s ^ 2 * Real.sqrt (1 + s ^ 2))) s := by
  have d := ((root_deriv s).div (hasDerivAt_id s) h.ne').mul (rem_deriv s)
  refine d.congr_deriv ?_
  have r0 := (root_pos s).ne'
  have r2 := root_sq s
  simp only [Pi.div_apply, id]
  generalize Real.sqrt (1 + s ^ 2) = r at r0 r2 ⊢
  rw [← r2]
  field_simp
  have : s ^ 2 = r ^ 2 - 1 := by linarith
  linear_combination (9009 * rem s * r) * this

theorem rem_lipschitz {x y : ℝ} (hx : 0 < x) (h : x ≤ y) :
    |Real.sqrt (1 + y ^ 2) / y * rem y - Real.sqrt (1 + x ^ 2) / x * rem x| ≤ 3072 / 9009 * y ^ 13 * (y - x) := by
  have k := (convex_Icc x y).norm_image_sub_le_of_norm_hasDerivWithin_le (f := fun s => Real.sqrt (1 + s ^ 2) / s * rem s)
    (f' := fun s => 3072 / 9009 * s ^ 13 / (1 + s ^ 2) - rem s / (s ^ 2 * Real.sqrt (1 + s ^ 2))) (C := 3072 / 9009 * y ^ 13)
    (fun s hs => (wfun_deriv (hx.trans_le hs.1)).hasDerivWithinAt) (fun s hs => ?_) (Set.left_mem_Icc.2 h) (Set.right_mem_Icc.2 h)
  · rw [Real.norm_eq_abs, Real.norm_eq_abs, abs_of_nonneg (sub_nonneg.2 h)] at k
    exact k
  · have s0 := hx.trans_le hs.1
    have r0 := root_pos s
    have r2 := root_sq s
    have p13 : s ^ 13 ≤ y ^ 13 := pow_le_pow_left₀ s0.le hs.2 13
    have a1 : 3072 / 9009 * s ^ 13 / (1 + s ^ 2) ≤ 3072 / 9009 * s ^ 13 := div_le_self (by positivity) (by nlinarith)
    have a0 : 0 ≤ 3072 / 9009 * s ^ 13 / (1 + s ^ 2) := by positivity
    have b0 : 0 ≤ rem s / (s ^ 2 * Real.sqrt (1 + s ^ 2)) := div_nonneg (rem_nonneg s0.le) (by positivity)
    have b1 : rem s / (s ^ 2 * Real.sqrt (1 + s ^ 2)) ≤ 3072 / 9009 * s ^ 13 / (1 + s ^ 2) := by
      rw [div_le_iff₀ (by positivity)]
      refine (rem_le s0.le).trans ?_
      generalize Real.sqrt (1 + s ^ 2) = r at r0 r2 ⊢
      rw [← r2]
      rw [show 3072 / 9009 * s ^ 13 / r ^ 2 * (s ^ 2 * r) = 3072 / 9009 * s ^ 15 / r by field_simp]
      apply div_le_div_of_nonneg_right _ r0.le
      have : 0 ≤ s ^ 15 := by positivity
      linarith
    rw [Real.norm_eq_abs, abs_le]
    constructor <;> linarith

/-- The error of the polynomial in differences. -/
theorem wfun_diff {x y : ℝ} (hx : 0 ≤ x) (h : x ≤ y) :
    |(wfun y - wpoly (y ^ 2)) - (wfun x - wpoly (x ^ 2))| ≤ 3072 / 9009 * y ^ 12 * (y ^ 2 - x ^ 2) := by
  rcases hx.eq_or_lt with rfl | hx
  · have z : wfun 0 - wpoly (0 ^ 2) = 0 := by simp [wfun, wpoly]
    rw [z, sub_zero]
    rcases h.eq_or_lt with rfl | hy
    · rw [z]; simp
    · have r0 := root_pos y
      rw [wfun_rem hy.ne', abs_of_nonneg (mul_nonneg (by positivity) (rem_nonneg hy.le))]
      refine (mul_le_mul_of_nonneg_left (rem_le hy.le) (by positivity)).trans ?_
      set r := Real.sqrt (1 + y ^ 2)
      rw [show r / y * (3072 / 9009 / 15 * y ^ 15 / r) = 3072 / 9009 / 15 * y ^ 14 by field_simp]
      have : 0 ≤ y ^ 14 := by positivity
      nlinarith
  · have hy := hx.trans_le h
    rw [wfun_rem hy.ne', wfun_rem hx.ne']
    refine (rem_lipschitz hx h).trans ?_
    have : 0 ≤ 3072 / 9009 * y ^ 12 * ((y - x) * x) := by
      have := sub_nonneg.2 h
      positivity
    linarith [show 3072 / 9009 * y ^ 12 * (y ^ 2 - x ^ 2) = 3072 / 9009 * y ^ 13 * (y - x) + 3072 / 9009 * y ^ 12 * ((y - x) * x) by ring]

/-! ### Specification -/

/-- The area between the equator and the latitude `phi` per radian of longitude, on the ellipsoid with the axes `a` and `b`: the integral of the radius of
curvature of the meridian times the radius of the parallel. -/
noncomputable def zone (a b phi : ℝ) : ℝ :=
  ∫ p in (0 : ℝ)..phi, a ^ 4 * b ^ 2 * Real.cos p / (a ^ 2 * Real.cos p ^ 2 + b ^ 2 * Real.sin p ^ 2) ^ 2

/-- The reduced latitude at the arc `s` of the geodesic that crosses the equator with the azimuth `alpha0`. -/
noncomputable def reduced (alpha0 s : ℝ) : ℝ := Real.arcsin (Real.cos alpha0 * Real.sin s)

/-- The latitude at the arc `s` of that geodesic. -/
noncomputable def latitude (a b alpha0 s : ℝ) : ℝ := Real.arctan (a / b * Real.tan (reduced alpha0 s))

/-- The rate at which the longitude grows with the arc. -/
noncomputable def lonRate (a b alpha0 s : ℝ) : ℝ :=
  Real.sin alpha0 / Real.cos (reduced alpha0 s) ^ 2 * Real.sqrt (1 - (a ^ 2 - b ^ 2) / a ^ 2 * Real.cos (reduced alpha0 s) ^ 2)

/-- The azimuth of that geodesic at the arc `s`. -/
noncomputable def azimuthAt (alpha0 s : ℝ) : ℝ := atan2 (Real.sin alpha0) (Real.cos alpha0 * Real.cos s)

/-- The area between the equator and the geodesic, from arc `s1` to arc `s2`. -/
noncomputable def areaUnder (a b alpha0 s1 s2 : ℝ) : ℝ := ∫ s in s1..s2, zone a b (latitude a b alpha0 s) * lonRate a b alpha0 s

/-! ### Zones -/

/-- Distance of axes. -/
noncomputable def foc (a b : ℝ) : ℝ := Real.sqrt (a ^ 2 - b ^ 2)

/-- The antiderivative. -/
noncomputable def zoneC (a b p : ℝ) : ℝ :=
  b ^ 2 / 2 * (a ^ 2 * Real.sin p / (a ^ 2 * Real.cos p ^ 2 + b ^ 2 * Real.sin p ^ 2)
    + a / foc a b * Real.arsinh (foc a b * Real.sin p / Real.sqrt (a ^ 2 * Real.cos p ^ 2 + b ^ 2 * Real.sin p ^ 2)))

variable {a b : ℝ}

theorem foc_sq (hb : 0 < b) (hab : b < a) : foc a b ^ 2 = a ^ 2 - b ^ 2 := Real.sq_sqrt (by nlinarith)
theorem foc_pos (hb : 0 < b) (hab : b < a) : 0 < foc a b := Real.sqrt_pos.2 (by nlinarith)

theorem quad_pos (hb : 0 < b) (hab : b < a) (p : ℝ) : 0 < a ^ 2 * Real.cos p ^ 2 + b ^ 2 * Real.sin p ^ 2 := by
  have h := Real.sin_sq_add_cos_sq p
  have : 0 < b ^ 2 := by positivity
  have k : 0 ≤ (a ^ 2 - b ^ 2) * Real.cos p ^ 2 := mul_nonneg (by nlinarith) (sq_nonneg _)
  nlinarith

theorem zoneC_deriv (hb : 0 < b) (hab : b < a) (p : ℝ) :
    HasDerivAt (zoneC a b) (a ^ 4 * b ^ 2 * Real.cos p / (a ^ 2 * Real.cos p ^ 2 + b ^ 2 * Real.sin p ^ 2) ^ 2) p := by
  have hQ := quad_pos hb hab p
  have hE := foc_pos hb hab
  have hE2 := foc_sq hb hab
  have dQ : HasDerivAt (fun p => a ^ 2 * Real.cos p ^ 2 + b ^ 2 * Real.sin p ^ 2) (-(2 * (a ^ 2 - b ^ 2) * Real.sin p * Real.cos p)) p := by
    have h := (((Real.hasDerivAt_cos p).pow 2).const_mul (a ^ 2)).add (((Real.hasDerivAt_sin p).pow 2).const_mul (b ^ 2))
    refine h.congr_deriv ?_
    push_cast
    ring
  have d1 := ((Real.hasDerivAt_sin p).const_mul (a ^ 2)).div dQ hQ.ne'
  have d2 := (((Real.hasDerivAt_sin p).const_mul (foc a b)).div (dQ.sqrt hQ.ne') (Real.sqrt_pos.2 hQ).ne').arsinh
  have h := (d1.add (d2.const_mul (a / foc a b))).const_mul (b ^ 2 / 2)
  refine h.congr_deriv ?_
  have sc : Real.cos p ^ 2 = 1 - Real.sin p ^ 2 := by linarith [Real.sin_sq_add_cos_sq p]
  have q2 : Real.sqrt (a ^ 2 * Real.cos p ^ 2 + b ^ 2 * Real.sin p ^ 2) ^ 2 = a ^ 2 * Real.cos p ^ 2 + b ^ 2 * Real.sin p ^ 2 := Real.sq_sqrt hQ.le
  have q0 := Real.sqrt_pos.2 hQ
  have ha : 0 < a := hb.trans hab
  have one : Real.sqrt (1 + (foc a b * Real.sin p / Real.sqrt (a ^ 2 * Real.cos p ^ 2 + b ^ 2 * Real.sin p ^ 2)) ^ 2)
      = a / Real.sqrt (a ^ 2 * Real.cos p ^ 2 + b ^ 2 * Real.sin p ^ 2) := by
    rw [Real.sqrt_eq_iff_eq_sq (by positivity) (by positivity), div_pow, div_pow, q2, mul_pow, hE2]
    field_simp
    rw [sc]; ring
  simp only [Pi.div_apply, smul_eq_mul]
  rw [one]
  have q2' : a ^ 2 * Real.cos p ^ 2 + b ^ 2 * Real.sin p ^ 2 = a ^ 2 - foc a b ^ 2 * Real.sin p ^ 2 := by rw [sc, hE2]; ring
  have hb2 : b ^ 2 = a ^ 2 - foc a b ^ 2 := by rw [hE2]; ring
  generalize hr : Real.sqrt (a ^ 2 * Real.cos p ^ 2 + b ^ 2 * Real.sin p ^ 2) = r at q2 q0 one ⊢
  rw [← hE2]
  generalize foc a b = E at hE hE2 q2' hb2 one ⊢
  have r2 : r ^ 2 = a ^ 2 - E ^ 2 * Real.sin p ^ 2 := by rw [q2, q2']
  rw [← q2]
  field_simp
  rw [r2]
  ring

theorem zone_eq (hb : 0 < b) (hab : b < a) (phi : ℝ) : zone a b phi = zoneC a b phi := by
  unfold zone
  rw [intervalIntegral.integral_eq_sub_of_hasDerivAt (fun p _ => zoneC_deriv hb hab p)]
  · have : zoneC a b 0 = 0 := by simp [zoneC]
    rw [this, sub_zero]
  · apply Continuous.intervalIntegrable
    refine Continuous.div (by fun_prop) (by fun_prop) (fun p => ?_)
    have := quad_pos hb hab p
    positivity

/-- A zone by the sine of its reduced latitude. -/
theorem zone_reduced (hb : 0 < b) (hab : b < a) {x : ℝ} (h1 : -1 < x) (h2 : x < 1) :
    zone a b (Real.arctan (a / b * Real.tan (Real.arcsin x))) =
      a / 2 * x * (b * Real.sqrt (1 + (foc a b / b * x) ^ 2)) + a * b ^ 2 / (2 * foc a b) * Real.arsinh (foc a b / b * x) := by
  have ha : 0 < a := hb.trans hab
  have hE := foc_pos hb hab
  have hE2 := foc_sq hb hab
  have hx : 0 < 1 - x ^ 2 := by nlinarith
  have hc := Real.sqrt_pos.2 hx
  have hc2 : Real.sqrt (1 - x ^ 2) ^ 2 = 1 - x ^ 2 := Real.sq_sqrt hx.le
  set g := Real.sqrt (1 + (foc a b / b * x) ^ 2) with hg
  have g0 : 0 < g := Real.sqrt_pos.2 (by positivity)
  have g2 : g ^ 2 = 1 + (foc a b / b * x) ^ 2 := Real.sq_sqrt (by positivity)
  have g2' : b ^ 2 * g ^ 2 = b ^ 2 + foc a b ^ 2 * x ^ 2 := by rw [g2]; field_simp
  have root : Real.sqrt (1 + (a / b * (x / Real.sqrt (1 - x ^ 2))) ^ 2) = g / Real.sqrt (1 - x ^ 2) := by
    rw [Real.sqrt_eq_iff_eq_sq (by positivity) (by positivity), div_pow, mul_pow, div_pow, div_pow, hc2, g2]
    field_simp
    rw [hE2]; ring
  have s : Real.sin (Real.arctan (a / b * Real.tan (Real.arcsin x))) = a * x / (b * g) := by
    rw [Real.tan_arcsin, Real.sin_arctan, root]
    field_simp
  have c : Real.cos (Real.arctan (a / b * Real.tan (Real.arcsin x))) = Real.sqrt (1 - x ^ 2) / g := by
    rw [Real.tan_arcsin, Real.cos_arctan, root]
    field_simp
  have q : a ^ 2 * Real.cos (Real.arctan (a / b * Real.tan (Real.arcsin x))) ^ 2 + b ^ 2 * Real.sin (Real.arctan (a / b * Real.tan (Real.arcsin x))) ^ 2
      = (a / g) ^ 2 := by
    rw [s, c, div_pow, div_pow, hc2]
    field_simp
    ring
  rw [zone_eq hb hab, zoneC, q, Real.sqrt_sq (by positivity), s]
  have e1 : foc a b * (a * x / (b * g)) / (a / g) = foc a b / b * x := by field_simp
  rw [e1]
  field_simp

/-! ### The integrand -/

theorem wfun_mul (s : ℝ) : Real.sqrt (1 + s ^ 2) * Real.arsinh s = s * wfun s := by
  unfold wfun
  split_ifs with h
  · rw [h]; simp
  · field_simp

theorem wfun_abs (s : ℝ) : wfun |s| = wfun s := by
  rcases abs_choice s with h | h
  · rw [h]
  · rw [h]
    unfold wfun
    rw [Real.arsinh_neg, neg_sq]
    by_cases k : s = 0
    · rw [if_pos (by rw [k]; simp), if_pos k]
    · rw [if_neg (by simpa using k), if_neg k]
      field_simp

theorem quot_mul (u v : ℝ) : (u + wpoly u) - (v + wpoly v) = (u - v) * quot u v := by
  unfold wpoly quot; ring

/-- Karney's difference quotient and its polynomial. -/
theorem quot_error (y x : ℝ) (hy : 0 ≤ y) (h : |x| ≤ 1) :
    |((y ^ 2 + wfun y) - ((y * x) ^ 2 + wfun (y * x))) - (y ^ 2 - (y * x) ^ 2) * quot (y ^ 2) ((y * x) ^ 2)| ≤ 3072 / 9009 * y ^ 12 * (y ^ 2 - (y * x) ^ 2) := by
  have k := wfun_diff (x := |y * x|) (y := y) (abs_nonneg _) (by rw [abs_mul, abs_of_nonneg hy]; exact mul_le_of_le_one_right hy h)
  rw [wfun_abs, sq_abs] at k
  rw [← quot_mul]
  convert k using 2
  ring

variable {alpha0 : ℝ}

theorem sine_small (h0 : 0 < Real.sin alpha0) (s : ℝ) : -1 < Real.cos alpha0 * Real.sin s ∧ Real.cos alpha0 * Real.sin s < 1 := by
  have h1 := Real.sin_sq_add_cos_sq alpha0
  have h2 := Real.sin_sq_add_cos_sq s
  have k : (Real.cos alpha0 * Real.sin s) ^ 2 < 1 := by
    rw [mul_pow]
    nlinarith [sq_nonneg (Real.cos alpha0), sq_nonneg (Real.cos s), sq_nonneg (Real.sin s), sq_pos_of_pos h0, mul_nonneg (sq_nonneg (Real.cos alpha0)) (sq_nonneg (Real.cos s))]
  exact abs_lt.1 ((sq_lt_one_iff_abs_lt_one _).1 k)

/-- The rate of the area. -/
theorem rate_eq (hb : 0 < b) (hab : b < a) (h0 : 0 < Real.sin alpha0) (s : ℝ) : zone a b (latitude a b alpha0 s) * lonRate a b alpha0 s =
    Real.sin alpha0 * (Real.cos alpha0 * Real.sin s) / (1 - (Real.cos alpha0 * Real.sin s) ^ 2) * (b ^ 2 / 2) *
      (1 + (foc a b / b * (Real.cos alpha0 * Real.sin s)) ^ 2 + wfun (foc a b / b * (Real.cos alpha0 * Real.sin s))) := by
  obtain ⟨h1, h2⟩ := sine_small h0 s
  unfold latitude lonRate reduced
  generalize Real.cos alpha0 * Real.sin s = x at h1 h2 ⊢
  have ha : 0 < a := hb.trans hab
  have hE := foc_pos hb hab
  have hE2 := foc_sq hb hab
  have hx : 0 < 1 - x ^ 2 := by nlinarith
  rw [zone_reduced hb hab h1 h2, Real.cos_arcsin, Real.sq_sqrt hx.le]
  have w := wfun_mul (foc a b / b * x)
  set g := Real.sqrt (1 + (foc a b / b * x) ^ 2) with hg
  have g0 : 0 < g := Real.sqrt_pos.2 (by positivity)
  have g2 : g ^ 2 = 1 + (foc a b / b * x) ^ 2 := Real.sq_sqrt (by positivity)
  have r : Real.sqrt (1 - (a ^ 2 - b ^ 2) / a ^ 2 * (1 - x ^ 2)) = b * g / a := by
    have k : 1 - (a ^ 2 - b ^ 2) / a ^ 2 * (1 - x ^ 2) = (b * g / a) ^ 2 := by
      rw [div_pow, mul_pow, g2, ← hE2]
      field_simp
      rw [hE2]; ring
    rw [k, Real.sqrt_sq (by positivity)]
  rw [r]
  rw [show (1 + (foc a b / b * x) ^ 2 : ℝ) = g ^ 2 from g2.symm]
  have e : (a / 2 * x * (b * g) + a * b ^ 2 / (2 * foc a b) * Real.arsinh (foc a b / b * x)) * (Real.sin alpha0 / (1 - x ^ 2) * (b * g / a))
      = Real.sin alpha0 / (1 - x ^ 2) * (b ^ 2 / 2 * (x * g ^ 2 + b / foc a b * (g * Real.arsinh (foc a b / b * x)))) := by
    field_simp
  rw [e, w]
  field_simp

/-- The square of the authalic radius. -/
noncomputable def authalic (a b : ℝ) : ℝ :=
  a ^ 2 / 2 + b ^ 2 / 2 * (1 / 2 * Real.log ((1 + foc a b / a) / (1 - foc a b / a))) / (foc a b / a)

theorem authalic_eq (hb : 0 < b) (hab : b < a) : authalic a b = b ^ 2 / 2 * (1 + (foc a b / b) ^ 2 + wfun (foc a b / b)) := by
  have ha : 0 < a := hb.trans hab
  have hE := foc_pos hb hab
  have hE2 := foc_sq hb hab
  have hEa : foc a b < a := by nlinarith
  have r : Real.sqrt (1 + (foc a b / b) ^ 2) = a / b := by
    rw [Real.sqrt_eq_iff_eq_sq (by positivity) (by positivity), div_pow, div_pow, hE2]
    field_simp
    ring
  have l : Real.arsinh (foc a b / b) = 1 / 2 * Real.log ((1 + foc a b / a) / (1 - foc a b / a)) := by
    unfold Real.arsinh
    rw [r]
    have k : (1 + foc a b / a) / (1 - foc a b / a) = (foc a b / b + a / b) ^ 2 := by
      have : 0 < 1 - foc a b / a := by rw [sub_pos, div_lt_one ha]; exact hEa
      rw [div_eq_iff this.ne']
      field_simp
      have hb2 : b ^ 2 = (a - foc a b) * (a + foc a b) := by linear_combination hE2
      rw [hb2]; ring
    rw [k, Real.log_pow]
    push_cast
    ring
  unfold authalic wfun
  rw [if_neg (by positivity), r, l]
  field_simp
  rw [hE2]
  ring

/-- The function the code takes the difference of. -/
noncomputable def swept (a b alpha0 s : ℝ) : ℝ :=
  authalic a b * azimuthAt alpha0 s + (a ^ 2 - b ^ 2) * Real.cos alpha0 * Real.sin alpha0 *
    cosineSumFrom s 0 (coefC4 ((foc a b / b) ^ 2) ((foc a b / b) ^ 2 * Real.cos alpha0 ^ 2))

theorem azimuth_deriv (h0 : 0 < Real.sin alpha0) (s : ℝ) : HasDerivAt (azimuthAt alpha0)
    (Real.sin alpha0 * (Real.cos alpha0 * Real.sin s) / (1 - (Real.cos alpha0 * Real.sin s) ^ 2)) s := by
  have e : azimuthAt alpha0 = fun s => Real.pi / 2 - Real.arctan (Real.cos alpha0 * Real.cos s / Real.sin alpha0) := by
    funext t; unfold azimuthAt; exact atan2_upper h0
  rw [e]
  have d := ((((Real.hasDerivAt_cos s).const_mul (Real.cos alpha0)).div_const (Real.sin alpha0)).arctan).const_sub (Real.pi / 2)
  refine d.congr_deriv ?_
  obtain ⟨h1, h2⟩ := sine_small h0 s
  have hx : 0 < 1 - (Real.cos alpha0 * Real.sin s) ^ 2 := by nlinarith
  have h3 := Real.sin_sq_add_cos_sq alpha0
  have h4 := Real.sin_sq_add_cos_sq s
  have k : 1 + (Real.cos alpha0 * Real.cos s / Real.sin alpha0) ^ 2 = (1 - (Real.cos alpha0 * Real.sin s) ^ 2) / Real.sin alpha0 ^ 2 := by
    field_simp
    linear_combination h3 + Real.cos alpha0 ^ 2 * h4
  rw [k]
  field_simp

theorem rate_bound {a b E sa ca ss wy wx : ℝ} (hb : 0 < b) (hE : 0 < E) (hE2 : E ^ 2 = a ^ 2 - b ^ 2) (h1 : -1 < ca * ss) (h2 : ca * ss < 1)
    (hs : |sa * (ca * ss)| ≤ 1 / 2) (hc : ca ^ 2 ≤ 1)
    (q : |(((E / b) ^ 2 + wy) - ((E / b * (ca * ss)) ^ 2 + wx)) - ((E / b) ^ 2 - (E / b * (ca * ss)) ^ 2) * quot ((E / b) ^ 2) ((E / b * (ca * ss)) ^ 2)| ≤
      3072 / 9009 * (E / b) ^ 12 * ((E / b) ^ 2 - (E / b * (ca * ss)) ^ 2)) :
    |b ^ 2 / 2 * (1 + (E / b) ^ 2 + wy) * (sa * (ca * ss) / (1 - (ca * ss) ^ 2)) + (a ^ 2 - b ^ 2) * ca * sa *
        (-(ss / 2 * quot ((E / b) ^ 2) ((E / b) ^ 2 * ca ^ 2 * ss ^ 2)) + 10 / 9009 * ((E / b) ^ 2) ^ 3 * ((E / b) ^ 2 * ca ^ 2) ^ 2 * ss)
      - sa * (ca * ss) / (1 - (ca * ss) ^ 2) * (b ^ 2 / 2) * (1 + (E / b * (ca * ss)) ^ 2 + wx)| ≤
      (a ^ 2 - b ^ 2) * (5 / 9009 * ((E / b) ^ 2) ^ 5 + 768 / 9009 * ((E / b) ^ 2) ^ 6) := by
  have hx : 0 < 1 - (ca * ss) ^ 2 := by nlinarith
  set y := E / b with hy
  have y0 : 0 < y := by positivity
  have yE : E = b * y := by rw [hy]; field_simp
  rw [← hE2, yE] at *
  rw [show y ^ 2 * ca ^ 2 * ss ^ 2 = (y * (ca * ss)) ^ 2 by ring]
  set Q := quot (y ^ 2) ((y * (ca * ss)) ^ 2)
  set d := ((y ^ 2 + wy) - ((y * (ca * ss)) ^ 2 + wx)) - (y ^ 2 - (y * (ca * ss)) ^ 2) * Q with hd
  have e : b ^ 2 / 2 * (1 + y ^ 2 + wy) * (sa * (ca * ss) / (1 - (ca * ss) ^ 2)) + (b * y) ^ 2 * ca * sa *
        (-(ss / 2 * Q) + 10 / 9009 * (y ^ 2) ^ 3 * (y ^ 2 * ca ^ 2) ^ 2 * ss)
      - sa * (ca * ss) / (1 - (ca * ss) ^ 2) * (b ^ 2 / 2) * (1 + (y * (ca * ss)) ^ 2 + wx)
      = sa * (ca * ss) * (b ^ 2 / 2 * (d / (1 - (ca * ss) ^ 2)) + (b * y) ^ 2 * (10 / 9009 * (y ^ 2) ^ 5 * (ca ^ 2) ^ 2)) := by
    rw [hd, show (y * (ca * ss)) ^ 2 = y ^ 2 * (1 - (1 - (ca * ss) ^ 2)) by ring]
    have hx' := hx.ne'
    generalize 1 - (ca * ss) ^ 2 = D at hx' ⊢
    field_simp
    ring
  rw [e, abs_mul]
  have k1 : |d / (1 - (ca * ss) ^ 2)| ≤ 3072 / 9009 * y ^ 14 := by
    rw [abs_div, abs_of_pos hx, div_le_iff₀ hx]
    refine q.trans (le_of_eq ?_)
    ring
  have k2 : (ca ^ 2) ^ 2 ≤ 1 := pow_le_one₀ (sq_nonneg _) hc
  have k3 : |b ^ 2 / 2 * (d / (1 - (ca * ss) ^ 2)) + (b * y) ^ 2 * (10 / 9009 * (y ^ 2) ^ 5 * (ca ^ 2) ^ 2)| ≤
      b ^ 2 / 2 * (3072 / 9009 * y ^ 14) + (b * y) ^ 2 * (10 / 9009 * (y ^ 2) ^ 5) := by
    refine (abs_add_le _ _).trans (add_le_add ?_ ?_)
    · rw [abs_mul, abs_of_nonneg (by positivity)]
      exact mul_le_mul_of_nonneg_left k1 (by positivity)
    · rw [abs_of_nonneg (by positivity)]
      exact mul_le_mul_of_nonneg_left (mul_le_of_le_one_right (by positivity) k2) (by positivity)
  calc _ ≤ 1 / 2 * (b ^ 2 / 2 * (3072 / 9009 * y ^ 14) + (b * y) ^ 2 * (10 / 9009 * (y ^ 2) ^ 5)) :=
        mul_le_mul hs k3 (abs_nonneg _) (by norm_num)
    _ = _ := by ring

theorem swept_deriv (hb : 0 < b) (hab : b < a) (h0 : 0 < Real.sin alpha0) (s : ℝ) : ∃ d, HasDerivAt (swept a b alpha0) d s ∧
    |d - zone a b (latitude a b alpha0 s) * lonRate a b alpha0 s| ≤
      (a ^ 2 - b ^ 2) * (5 / 9009 * ((foc a b / b) ^ 2) ^ 5 + 768 / 9009 * ((foc a b / b) ^ 2) ^ 6) := by
  refine ⟨_, ((azimuth_deriv h0 s).const_mul _).add ((series_deriv _ _ s).const_mul _), ?_⟩
  rw [rate_eq hb hab h0, authalic_eq hb hab]
  obtain ⟨h1, h2⟩ := sine_small h0 s
  have hE := foc_pos hb hab
  have hE2 := foc_sq hb hab
  have q := quot_error (foc a b / b) (Real.cos alpha0 * Real.sin s) (by positivity) (abs_le.2 ⟨h1.le, h2.le⟩)
  exact rate_bound hb hE hE2 h1 h2 (by
    have h3 := Real.sin_sq_add_cos_sq alpha0
    have h4 := Real.abs_sin_le_one s
    have h5 : |Real.sin alpha0 * Real.cos alpha0| ≤ 1 / 2 := by
      rw [abs_le]; constructor <;> nlinarith [sq_nonneg (Real.sin alpha0 + Real.cos alpha0), sq_nonneg (Real.sin alpha0 - Real.cos alpha0)]
    rw [← mul_assoc, abs_mul]
    nlinarith [abs_nonneg (Real.sin alpha0 * Real.cos alpha0), abs_nonneg (Real.sin s)]) (Real.cos_sq_le_one alpha0) q

theorem swept_diff (hb : 0 < b) (hab : b < a) (h0 : 0 < Real.sin alpha0) (s1 s2 : ℝ) :
    |(swept a b alpha0 s2 - swept a b alpha0 s1) - areaUnder a b alpha0 s1 s2| ≤
      (a ^ 2 - b ^ 2) * (5 / 9009 * ((foc a b / b) ^ 2) ^ 5 + 768 / 9009 * ((foc a b / b) ^ 2) ^ 6) * |s2 - s1| := by
  have cont : Continuous fun s => zone a b (latitude a b alpha0 s) * lonRate a b alpha0 s := by
    have e : (fun s => zone a b (latitude a b alpha0 s) * lonRate a b alpha0 s) = fun s =>
        (a / 2 * (Real.cos alpha0 * Real.sin s) * (b * Real.sqrt (1 + (foc a b / b * (Real.cos alpha0 * Real.sin s)) ^ 2))
          + a * b ^ 2 / (2 * foc a b) * Real.arsinh (foc a b / b * (Real.cos alpha0 * Real.sin s))) *
        (Real.sin alpha0 / (1 - (Real.cos alpha0 * Real.sin s) ^ 2) * Real.sqrt (1 - (a ^ 2 - b ^ 2) / a ^ 2 * (1 - (Real.cos alpha0 * Real.sin s) ^ 2))) := by
      funext s
      obtain ⟨h1, h2⟩ := sine_small h0 s
      unfold latitude lonRate reduced
      rw [zone_reduced hb hab h1 h2, Real.cos_arcsin, Real.sq_sqrt (by nlinarith)]
    rw [e]
    have as : Continuous Real.arsinh := Real.continuous_arsinh
    refine Continuous.mul (Continuous.add (by fun_prop) (Continuous.mul continuous_const (as.comp (by fun_prop))))
      (Continuous.mul (Continuous.div (by fun_prop) (by fun_prop) (fun s => ?_)) (by fun_prop))
    obtain ⟨h1, h2⟩ := sine_small h0 s
    nlinarith
  have k := (convex_univ (𝕜 := ℝ) (E := ℝ)).norm_image_sub_le_of_norm_hasDerivWithin_le
    (f := fun s => swept a b alpha0 s - ∫ t in s1..s, zone a b (latitude a b alpha0 t) * lonRate a b alpha0 t)
    (f' := fun s => Classical.choose (swept_deriv hb hab h0 s) - zone a b (latitude a b alpha0 s) * lonRate a b alpha0 s)
    (C := (a ^ 2 - b ^ 2) * (5 / 9009 * ((foc a b / b) ^ 2) ^ 5 + 768 / 9009 * ((foc a b / b) ^ 2) ^ 6))
    (fun s _ => ((Classical.choose_spec (swept_deriv hb hab h0 s)).1.sub (cont.integral_hasStrictDerivAt s1 s).hasDerivAt).hasDerivWithinAt)
    (fun s _ => (Classical.choose_spec (swept_deriv hb hab h0 s)).2) (Set.mem_univ s1) (Set.mem_univ s2)
  simp only [intervalIntegral.integral_same, sub_zero, Real.norm_eq_abs] at k
  unfold areaUnder
  convert k using 2
  ring

/-! ### Two points of a geodesic -/

theorem half_tan {x : ℝ} (h : 1 + Real.cos x ≠ 0) : Real.tan (1 / 2 * x) = Real.sin x / (1 + Real.cos x) := by
  have e : x = 2 * (1 / 2 * x) := by ring
  have s : Real.sin x = 2 * Real.sin (1 / 2 * x) * Real.cos (1 / 2 * x) := by conv_lhs => rw [e, Real.sin_two_mul]
  have c : 1 + Real.cos x = 2 * Real.cos (1 / 2 * x) ^ 2 := by
    have k := Real.cos_two_mul (1 / 2 * x)
    rw [← e] at k
    rw [k]; ring
  have c0 : Real.cos (1 / 2 * x) ≠ 0 := by intro z; rw [c, z] at h; simp at h
  rw [c, s, Real.tan_eq_sin_div_cos]
  field_simp

theorem half_sum (x y : ℝ) (h : 1 + Real.cos (y - x) ≠ 0) :
    Real.sin (1 / 2 * x + 1 / 2 * y) / Real.cos (1 / 2 * y - 1 / 2 * x) = (Real.sin x + Real.sin y) / (1 + Real.cos (y - x)) := by
  have ex : x = (1 / 2 * x + 1 / 2 * y) - (1 / 2 * y - 1 / 2 * x) := by ring
  have ey : y = (1 / 2 * x + 1 / 2 * y) + (1 / 2 * y - 1 / 2 * x) := by ring
  have ed : y - x = 2 * (1 / 2 * y - 1 / 2 * x) := by ring
  have s : Real.sin x + Real.sin y = 2 * Real.sin (1 / 2 * x + 1 / 2 * y) * Real.cos (1 / 2 * y - 1 / 2 * x) := by
    have h1 := Real.sin_sub (1 / 2 * x + 1 / 2 * y) (1 / 2 * y - 1 / 2 * x)
    have h2 := Real.sin_add (1 / 2 * x + 1 / 2 * y) (1 / 2 * y - 1 / 2 * x)
    rw [← ex] at h1
    rw [← ey] at h2
    rw [h1, h2]; ring
  have c : 1 + Real.cos (y - x) = 2 * Real.cos (1 / 2 * y - 1 / 2 * x) ^ 2 := by rw [ed, Real.cos_two_mul]; ring
  have c0 : Real.cos (1 / 2 * y - 1 / 2 * x) ≠ 0 := by intro z; rw [c, z] at h; simp at h
  rw [s, c]
  field_simp

/-- Bessel's identity: the excess is the difference of the azimuths. -/
theorem bessel {b1 z1 a0 s1 w1 b2 z2 s2 w2 : ℝ} (n1 : Node b1 z1 a0 s1 w1) (n2 : Node b2 z2 a0 s2 w2) (c1 : 0 < Real.cos b1) (c2 : 0 < Real.cos b2)
    (hw : 1 + Real.cos (w2 - w1) ≠ 0) (hz : 1 + Real.cos (z2 - z1) ≠ 0) (hd : 1 + Real.cos (b2 - b1) ≠ 0) :
    Real.sin (1 / 2 * b1 + 1 / 2 * b2) / Real.cos (1 / 2 * b2 - 1 / 2 * b1) * Real.tan (1 / 2 * (w2 - w1)) = Real.tan (1 / 2 * (z2 - z1)) := by
  rw [half_sum _ _ hd, half_tan hw, half_tan hz]
  have C0 : Real.cos b1 * Real.cos b2 ≠ 0 := by positivity
  set C := Real.cos b1 * Real.cos b2 with hC
  have e1 : Real.sin b1 + Real.sin b2 = Real.cos a0 * (Real.sin s1 + Real.sin s2) := by rw [← n1.z, ← n2.z]; ring
  have e2 : 1 + Real.cos (b2 - b1) = 1 + C + Real.cos a0 ^ 2 * (Real.sin s1 * Real.sin s2) := by
    rw [Real.cos_sub, ← n1.z, ← n2.z, hC]; ring
  have e3 : C * Real.sin (w2 - w1) = Real.sin a0 * (Real.sin s2 * Real.cos s1 - Real.cos s2 * Real.sin s1) := by
    rw [Real.sin_sub, hC]
    linear_combination (Real.cos b1 * Real.cos w1) * n2.sw + (Real.sin a0 * Real.sin s2) * n1.cw - (Real.cos b1 * Real.sin w1) * n2.cw - Real.cos s2 * n1.sw
  have e4 : C * (1 + Real.cos (w2 - w1)) = C + Real.cos s1 * Real.cos s2 + Real.sin a0 ^ 2 * (Real.sin s1 * Real.sin s2) := by
    rw [Real.cos_sub, hC]
    linear_combination (Real.cos b1 * Real.cos w1) * n2.cw + Real.cos s2 * n1.cw + (Real.cos b1 * Real.sin w1) * n2.sw + (Real.sin a0 * Real.sin s2) * n1.sw
  have e5 : C * Real.sin (z2 - z1) = Real.sin a0 * Real.cos a0 * (Real.cos s1 - Real.cos s2) := by
    rw [Real.sin_sub, hC]
    linear_combination -(Real.cos z1 * Real.cos b1) * n2.s0 - (Real.sin a0) * n1.n + (Real.sin z1 * Real.cos b1) * n2.n + (Real.cos a0 * Real.cos s2) * n1.s0
  have e6 : C * (1 + Real.cos (z2 - z1)) = C + Real.cos a0 ^ 2 * (Real.cos s1 * Real.cos s2) + Real.sin a0 ^ 2 := by
    rw [Real.cos_sub, hC]
    linear_combination -(Real.cos z1 * Real.cos b1) * n2.n - (Real.cos a0 * Real.cos s2) * n1.n - (Real.sin z1 * Real.cos b1) * n2.s0 - Real.sin a0 * n1.s0
  have t1 := Real.sin_sq_add_cos_sq s1
  have t2 := Real.sin_sq_add_cos_sq s2
  have t0 := Real.sin_sq_add_cos_sq a0
  have C2 : C ^ 2 = (1 - (Real.cos a0 * Real.sin s1) ^ 2) * (1 - (Real.cos a0 * Real.sin s2) ^ 2) := by
    rw [n1.z, n2.z, hC]
    have h1 := Real.sin_sq_add_cos_sq b1
    have h2 := Real.sin_sq_add_cos_sq b2
    rw [show 1 - Real.sin b1 ^ 2 = Real.cos b1 ^ 2 by linarith, show 1 - Real.sin b2 ^ 2 = Real.cos b2 ^ 2 by linarith]; ring
  have q1 : Real.sin (w2 - w1) / (1 + Real.cos (w2 - w1)) = Real.sin a0 * (Real.sin s2 * Real.cos s1 - Real.cos s2 * Real.sin s1) /
      (C + Real.cos s1 * Real.cos s2 + Real.sin a0 ^ 2 * (Real.sin s1 * Real.sin s2)) := by
    rw [← e3, ← e4, mul_div_mul_left _ _ C0]
  have q2 : Real.sin (z2 - z1) / (1 + Real.cos (z2 - z1)) = Real.sin a0 * Real.cos a0 * (Real.cos s1 - Real.cos s2) /
      (C + Real.cos a0 ^ 2 * (Real.cos s1 * Real.cos s2) + Real.sin a0 ^ 2) := by
    rw [← e5, ← e6, mul_div_mul_left _ _ C0]
  have d1 := mul_ne_zero C0 hw
  have d2 := mul_ne_zero C0 hz
  rw [e4] at d1
  rw [e6] at d2
  rw [e2] at hd
  rw [q1, q2, e1, e2, div_mul_div_comm, div_eq_div_iff (mul_ne_zero hd d1) d2]
  have sa : Real.sin a0 ^ 2 = 1 - Real.cos a0 ^ 2 := by linarith
  have f1 : (Real.sin s1 + Real.sin s2) * (Real.sin s2 * Real.cos s1 - Real.cos s2 * Real.sin s1)
      = (Real.cos s1 - Real.cos s2) * (1 + Real.sin s1 * Real.sin s2 + Real.cos s1 * Real.cos s2) := by
    linear_combination Real.cos s1 * t2 - Real.cos s2 * t1
  have f2 : (1 + Real.sin s1 * Real.sin s2 + Real.cos s1 * Real.cos s2) * (C + Real.cos a0 ^ 2 * (Real.cos s1 * Real.cos s2) + Real.sin a0 ^ 2)
      = (1 + C + Real.cos a0 ^ 2 * (Real.sin s1 * Real.sin s2)) * (C + Real.cos s1 * Real.cos s2 + Real.sin a0 ^ 2 * (Real.sin s1 * Real.sin s2)) := by
    rw [sa]
    have g : C ^ 2 = 1 - Real.cos a0 ^ 2 * (1 + (Real.sin s1 * Real.sin s2) ^ 2 - (Real.cos s1 * Real.cos s2) ^ 2) + Real.cos a0 ^ 4 * (Real.sin s1 * Real.sin s2) ^ 2 := by
      rw [C2]
      have u1 : Real.cos s1 ^ 2 = 1 - Real.sin s1 ^ 2 := by linarith
      have u2 : Real.cos s2 ^ 2 = 1 - Real.sin s2 ^ 2 := by linarith
      rw [mul_pow (Real.cos s1), u1, u2]; ring
    linear_combination -g
  calc _ = Real.sin a0 * Real.cos a0 * (((Real.sin s1 + Real.sin s2) * (Real.sin s2 * Real.cos s1 - Real.cos s2 * Real.sin s1)) *
        (C + Real.cos a0 ^ 2 * (Real.cos s1 * Real.cos s2) + Real.sin a0 ^ 2)) := by ring
    _ = Real.sin a0 * Real.cos a0 * ((Real.cos s1 - Real.cos s2) * ((1 + Real.sin s1 * Real.sin s2 + Real.cos s1 * Real.cos s2) *
        (C + Real.cos a0 ^ 2 * (Real.cos s1 * Real.cos s2) + Real.sin a0 ^ 2))) := by rw [f1]; ring
    _ = _ := by rw [f2]; ring

/-- The azimuth at the second point: Clairaut's relation. -/
theorem neb_clairaut {z1 b1 b2 z2 : ℝ} (c1 : 0 < Real.cos b1) (c2 : 0 < Real.cos b2) (h0 : 0 ≤ Real.sin z1)
    (h : nebAlpha (alphaZero z1 b1) z1 b1 b2 = .ok z2) :
    0 ≤ z2 ∧ z2 ≤ Real.pi / 2 ∧ Real.sin z2 * Real.cos b2 = Real.sin z1 * Real.cos b1 ∧
      (Real.cos z2 * Real.cos b2) ^ 2 = Real.cos z1 ^ 2 * Real.cos b1 ^ 2 + (Real.cos b2 ^ 2 - Real.cos b1 ^ 2) := by
  have sz := (node_ok b1 z1 c1.le).s0
  have t1 := Real.sin_sq_add_cos_sq z1
  have s1 : Real.sin z1 ^ 2 = 1 - Real.cos z1 ^ 2 := by linarith
  set D := Real.cos z1 ^ 2 * Real.cos b1 ^ 2 + (Real.cos b2 ^ 2 - Real.cos b1 ^ 2) with hD
  have hD' : D = Real.cos b2 ^ 2 - (Real.sin z1 * Real.cos b1) ^ 2 := by rw [hD, mul_pow, s1]; ring
  have hs : 0 ≤ Real.sin z1 * Real.cos b1 := mul_nonneg h0 c1.le
  by_cases n : D < 0
  · exfalso
    have : 1 < Real.sin (alphaZero z1 b1) / Real.cos b2 := by
      rw [sz, lt_div_iff₀ c2, one_mul]
      nlinarith
    unfold nebAlpha pySqrt at h
    rw [← hD, if_pos n] at h
    simp only [bind, Except.bind, pyDiv, c2.ne', if_false, pyAsin] at h
    rw [if_neg (fun k => absurd k.2 (not_le.2 this))] at h
    cases h
  · have n' := not_lt.1 n
    have q0 : 0 ≤ Real.sqrt D / Real.cos b2 := by positivity
    have q1 : Real.sqrt D / Real.cos b2 ≤ 1 := by
      rw [div_le_one c2, Real.sqrt_le_left c2.le, hD']
      nlinarith [sq_nonneg (Real.sin z1 * Real.cos b1)]
    unfold nebAlpha pySqrt at h
    rw [← hD, if_neg n] at h
    simp only [bind, Except.bind, pyDiv, c2.ne', if_false, pyAcos] at h
    rw [if_pos ⟨by linarith, q1⟩] at h
    cases h
    have cz : Real.cos (Real.arccos (Real.sqrt D / Real.cos b2)) = Real.sqrt D / Real.cos b2 := Real.cos_arccos (by linarith) q1
    refine ⟨Real.arccos_nonneg _, Real.arccos_le_pi_div_two.2 q0, ?_, ?_⟩
    · rw [Real.sin_arccos]
      have : 1 - (Real.sqrt D / Real.cos b2) ^ 2 = (Real.sin z1 * Real.cos b1 / Real.cos b2) ^ 2 := by
        rw [div_pow, Real.sq_sqrt n', hD', div_pow]; field_simp; ring
      rw [this, Real.sqrt_sq (by positivity)]
      field_simp
    · rw [cz, div_mul_cancel₀ _ c2.ne', Real.sq_sqrt n']

theorem alphaZero_congr {z1 b1 z2 b2 : ℝ} (h : Real.sin z2 * Real.cos b2 = Real.sin z1 * Real.cos b1) : alphaZero z2 b2 = alphaZero z1 b1 := by
  unfold alphaZero
  have k : ∀ z b : ℝ, Real.cos z ^ 2 + (Real.sin z * Real.sin b) ^ 2 = 1 - (Real.sin z * Real.cos b) ^ 2 := by
    intro z b
    have h1 := Real.sin_sq_add_cos_sq z
    have h2 := Real.sin_sq_add_cos_sq b
    linear_combination h1 + Real.sin z ^ 2 * h2
  rw [k, k, h]

/-- The excess, for all pairs of points but those opposite to one another. -/
theorem excess {b1 z1 a0 s1 w1 b2 z2 s2 w2 : ℝ} (n1 : Node b1 z1 a0 s1 w1) (n2 : Node b2 z2 a0 s2 w2) (r1 : -(Real.pi / 2) < b1 ∧ b1 < Real.pi / 2)
    (r2 : -(Real.pi / 2) < b2 ∧ b2 < Real.pi / 2) (h0 : 0 < z1) (h1 : z1 < Real.pi) (h2 : 0 ≤ z2) (h3 : z2 ≤ Real.pi / 2)
    (hp : b1 + b2 ≠ 0 ∨ (0 ≤ Real.cos z1 ∧ (Real.cos z2 * Real.cos b2) ^ 2 = Real.cos z1 ^ 2 * Real.cos b1 ^ 2 + (Real.cos b2 ^ 2 - Real.cos b1 ^ 2))) :
    2 * Real.arctan (Real.sin (1 / 2 * b1 + 1 / 2 * b2) / Real.cos (1 / 2 * b2 - 1 / 2 * b1) * Real.tan (1 / 2 * (w2 - w1))) = z2 - z1 := by
  have c1 : 0 < Real.cos b1 := Real.cos_pos_of_mem_Ioo r1
  have c2 : 0 < Real.cos b2 := Real.cos_pos_of_mem_Ioo r2
  have half : ∀ x : ℝ, -Real.pi < x → x < Real.pi → 1 + Real.cos x ≠ 0 := by
    intro x x1 x2
    have k := Real.cos_two_mul (1 / 2 * x)
    rw [show 2 * (1 / 2 * x) = x by ring] at k
    have c := Real.cos_pos_of_mem_Ioo (x := 1 / 2 * x) ⟨by linarith, by linarith⟩
    have : 0 < Real.cos (1 / 2 * x) ^ 2 := by positivity
    rw [k]; intro z; linarith
  by_cases hs : b1 + b2 = 0
  · obtain ⟨k1, k2⟩ := hp.resolve_left (fun k => k hs)
    rw [show 1 / 2 * b1 + 1 / 2 * b2 = 0 by linarith, Real.sin_zero, zero_div, zero_mul, Real.arctan_zero, mul_zero]
    have e : Real.cos b2 = Real.cos b1 := by rw [show b2 = -b1 by linarith, Real.cos_neg]
    rw [e, sub_self, add_zero, mul_pow] at k2
    have k3 := mul_right_cancel₀ (pow_ne_zero 2 c1.ne') k2
    have cz : 0 ≤ Real.cos z2 := Real.cos_nonneg_of_mem_Icc ⟨by linarith, h3⟩
    have k4 := (pow_left_inj₀ cz k1 two_ne_zero).1 k3
    have := Real.injOn_cos ⟨h2, by linarith [Real.pi_pos]⟩ ⟨h0.le, h1.le⟩ k4
    rw [this, sub_self]
  · have hw : 1 + Real.cos (w2 - w1) ≠ 0 := by
      intro z
      have sz : Real.sin (w2 - w1) = 0 := by
        have := Real.sin_sq_add_cos_sq (w2 - w1)
        rw [show Real.cos (w2 - w1) = -1 by linarith] at this
        exact pow_eq_zero_iff two_ne_zero |>.1 (by linarith)
      have e3 : Real.cos b1 * Real.cos b2 * Real.sin (w2 - w1) = Real.sin a0 * (Real.sin s2 * Real.cos s1 - Real.cos s2 * Real.sin s1) := by
        rw [Real.sin_sub]
        linear_combination (Real.cos b1 * Real.cos w1) * n2.sw + (Real.sin a0 * Real.sin s2) * n1.cw - (Real.cos b1 * Real.sin w1) * n2.cw - Real.cos s2 * n1.sw
      have e4 : Real.cos b1 * Real.cos b2 * (1 + Real.cos (w2 - w1)) =
          Real.cos b1 * Real.cos b2 + Real.cos s1 * Real.cos s2 + Real.sin a0 ^ 2 * (Real.sin s1 * Real.sin s2) := by
        rw [Real.cos_sub]
        linear_combination (Real.cos b1 * Real.cos w1) * n2.cw + Real.cos s2 * n1.cw + (Real.cos b1 * Real.sin w1) * n2.sw + (Real.sin a0 * Real.sin s2) * n1.sw
      rw [sz, mul_zero] at e3
      rw [z, mul_zero] at e4
      have sa : 0 < Real.sin a0 := by rw [n1.s0]; exact mul_pos (Real.sin_pos_of_pos_of_lt_pi h0 h1) c1
      have sd : Real.sin (s2 - s1) = 0 := by
        rw [Real.sin_sub]
        rcases mul_eq_zero.1 e3.symm with k | k
        · exact absurd k sa.ne'
        · exact k
      have s2e : Real.sin s2 = Real.sin s1 * Real.cos (s2 - s1) := by
        have := Real.sin_add s1 (s2 - s1)
        rw [sd, mul_zero, add_zero, add_sub_cancel] at this
        exact this
      have c2e : Real.cos s2 = Real.cos s1 * Real.cos (s2 - s1) := by
        have := Real.cos_add s1 (s2 - s1)
        rw [sd, mul_zero, sub_zero, add_sub_cancel] at this
        exact this
      rcases Real.sin_eq_zero_iff_cos_eq.1 sd with k | k
      · rw [k, mul_one] at s2e c2e
        rw [s2e, c2e] at e4
        have : 0 < Real.cos b1 * Real.cos b2 := by positivity
        nlinarith [sq_nonneg (Real.cos s1), mul_nonneg (sq_nonneg (Real.sin a0)) (sq_nonneg (Real.sin s1))]
      · rw [k, mul_neg, mul_one] at s2e
        have z1 := n1.z
        have z2 := n2.z
        rw [s2e, mul_neg, z1, ← Real.sin_neg] at z2
        have := Real.injOn_sin (x₁ := b2) (x₂ := -b1) ⟨r2.1.le, r2.2.le⟩ ⟨by linarith [r1.2], by linarith [r1.1]⟩ z2.symm
        exact hs (by linarith)
    rw [bessel n1 n2 c1 c2 hw (half _ (by linarith) (by linarith [Real.pi_pos])) (half _ (by linarith [r1.2, r2.1]) (by linarith [r1.1, r2.2])),
      Real.arctan_tan (by linarith) (by linarith [Real.pi_pos])]
    ring

/-- The reduced latitude of a node. -/
theorem node_latitude {bl az a0 s w phi : ℝ} (hb : 0 < b) (hab : b < a) (n : Node bl az a0 s w) (hp : |phi| < Real.pi / 2)
    (e : bl = Real.arctan (b / a * Real.tan phi)) : latitude a b a0 s = phi := by
  have ha : 0 < a := hb.trans hab
  obtain ⟨p1, p2⟩ := abs_lt.1 hp
  unfold latitude reduced
  rw [n.z, Real.arcsin_sin (by rw [e]; exact (Real.neg_pi_div_two_lt_arctan _).le) (by rw [e]; exact (Real.arctan_lt_pi_div_two _).le), e, Real.tan_arctan]
  rw [show a / b * (b / a * Real.tan phi) = Real.tan phi by field_simp, Real.arctan_tan p1 p2]

theorem node_azimuth {bl az a0 s w : ℝ} (hc : 0 < Real.cos bl) (n : Node bl az a0 s w) (h1 : -Real.pi < az) (h2 : az ≤ Real.pi) : azimuthAt a0 s = az := by
  unfold azimuthAt
  rw [n.n, n.s0, mul_comm (Real.sin az), mul_comm (Real.cos az)]
  exact atan2_polar hc h1 h2

/-! ### C175 -/

/-- C175.  The area that the code assigns to a side is the area between the geodesic and the equator, from the point at latitude `phi1`, with azimuth
`alpha1`, to the point at latitude `phi2` that the geodesic passes northwards; the error is of the fifth order in the square of the second
eccentricity. -/
theorem C175_side_partial {a b phi1 phi2 alpha1 v : ℝ} (hb : 0 < b) (hab : b < a) (h1 : |phi1| < Real.pi / 2) (h2 : |phi2| < Real.pi / 2)
    (ha0 : 0 < alpha1) (ha1 : alpha1 < Real.pi) (hp : phi1 + phi2 ≠ 0 ∨ 0 ≤ Real.cos alpha1) (h : ellAreaCore a b phi1 phi2 alpha1 = .ok v) :
    ∃ alpha0 s1 s2, 0 < Real.sin alpha0 ∧ latitude a b alpha0 s1 = phi1 ∧ azimuthAt alpha0 s1 = alpha1 ∧ latitude a b alpha0 s2 = phi2 ∧
      azimuthAt alpha0 s2 ≤ Real.pi / 2 ∧
      |v - areaUnder a b alpha0 s1 s2| ≤
        (a ^ 2 - b ^ 2) * (5 / 9009 * ((a ^ 2 - b ^ 2) / b ^ 2) ^ 5 + 768 / 9009 * ((a ^ 2 - b ^ 2) / b ^ 2) ^ 6) * |s2 - s1| := by
  have ha : 0 < a := hb.trans hab
  have hE := foc_pos hb hab
  have hE2 := foc_sq hb hab
  have hEa : foc a b < a := by nlinarith
  have f1 : 1 - (a - b) / a = b / a := by field_simp; ring
  have f2 : (a - b) / a * (2 - (a - b) / a) = (foc a b / a) ^ 2 := by rw [div_pow, hE2]; field_simp; ring
  have f3 : (foc a b / a) ^ 2 / (1 - (foc a b / a) ^ 2) = (foc a b / b) ^ 2 := by
    rw [div_pow, div_pow, hE2]
    have : 1 - (a ^ 2 - b ^ 2) / a ^ 2 = b ^ 2 / a ^ 2 := by field_simp; ring
    rw [this]; field_simp
  have sE : pySqrt ((foc a b / a) ^ 2) = .ok (foc a b / a) := by
    unfold pySqrt; rw [if_neg (not_lt.2 (by positivity)), Real.sqrt_sq (by positivity)]
  have tE : pyAtanh (foc a b / a) = .ok (1 / 2 * Real.log ((1 + foc a b / a) / (1 - foc a b / a))) := by
    unfold pyAtanh
    rw [if_pos ⟨by have : 0 < foc a b / a := by positivity
                   linarith, (div_lt_one ha).2 hEa⟩]
  have dE : ∀ x, pyDiv x (foc a b / a) = .ok (x / (foc a b / a)) := fun x => by unfold pyDiv; rw [if_neg (by positivity)]
  have au0 : 0 ≤ a ^ 2 / 2 + b ^ 2 / 2 * (1 / 2 * Real.log ((1 + foc a b / a) / (1 - foc a b / a))) / (foc a b / a) := by
    have hl : 0 ≤ Real.log ((1 + foc a b / a) / (1 - foc a b / a)) := by
      have k1 : foc a b / a < 1 := (div_lt_one ha).2 hEa
      have k0 : 0 < foc a b / a := by positivity
      apply Real.log_nonneg
      rw [le_div_iff₀ (by linarith)]; linarith
    positivity
  unfold ellAreaCore at h
  dsimp only at h
  rw [f1, f2, f3, sE] at h
  simp only [bind, Except.bind, tE, dE] at h
  rw [show pySqrt (a ^ 2 / 2 + b ^ 2 / 2 * (1 / 2 * Real.log ((1 + foc a b / a) / (1 - foc a b / a))) / (foc a b / a)) = .ok (Real.sqrt (authalic a b)) by
    unfold pySqrt; rw [if_neg (not_lt.2 au0)]; rfl] at h
  simp only at h
  generalize e1 : Real.arctan (b / a * Real.tan phi1) = b1 at h
  generalize e2 : Real.arctan (b / a * Real.tan phi2) = b2 at h
  have c1 : 0 < Real.cos b1 := by rw [← e1]; exact Real.cos_arctan_pos _
  have c2 : 0 < Real.cos b2 := by rw [← e2]; exact Real.cos_arctan_pos _
  unfold solveNEB at h
  simp only [bind, Except.bind] at h
  cases hn : nebAlpha (alphaZero alpha1 b1) alpha1 b1 b2 with
  | error e => rw [hn] at h; cases h
  | ok z2 =>
    rw [hn] at h
    simp only at h
    have sa1 : 0 < Real.sin alpha1 := Real.sin_pos_of_pos_of_lt_pi ha0 ha1
    obtain ⟨z0, zp, cl, cc⟩ := neb_clairaut c1 c2 sa1.le hn
    have n1 := node_ok b1 alpha1 c1.le
    have n2 := node_ok b2 z2 c2.le
    rw [alphaZero_congr cl] at n2
    have r1 : -(Real.pi / 2) < b1 ∧ b1 < Real.pi / 2 := by rw [← e1]; exact ⟨Real.neg_pi_div_two_lt_arctan _, Real.arctan_lt_pi_div_two _⟩
    have r2 : -(Real.pi / 2) < b2 ∧ b2 < Real.pi / 2 := by rw [← e2]; exact ⟨Real.neg_pi_div_two_lt_arctan _, Real.arctan_lt_pi_div_two _⟩
    have hd : Real.cos (1 / 2 * b2 - 1 / 2 * b1) ≠ 0 := (Real.cos_pos_of_mem_Ioo ⟨by linarith [r1.1, r1.2, r2.1, r2.2], by linarith [r1.1, r1.2, r2.1, r2.2]⟩).ne'
    have dd : pyDiv (Real.sin (1 / 2 * b1 + 1 / 2 * b2)) (Real.cos (1 / 2 * b2 - 1 / 2 * b1)) =
        .ok (Real.sin (1 / 2 * b1 + 1 / 2 * b2) / Real.cos (1 / 2 * b2 - 1 / 2 * b1)) := by unfold pyDiv; rw [if_neg hd]
    rw [dd] at h
    have ex := excess n1 n2 r1 r2 ha0 ha1 z0 zp (by
      rcases hp with hp | hp
      · left
        intro k
        apply hp
        have k' : b2 = -b1 := by linarith
        rw [← e1, ← e2, ← Real.arctan_neg] at k'
        have k'' := Real.arctan_injective k'
        have k3 : Real.tan phi2 = Real.tan (-phi1) := by
          rw [Real.tan_neg]
          have hba : b / a ≠ 0 := by positivity
          apply mul_left_cancel₀ hba
          rw [k'']; ring
        obtain ⟨p1, p2⟩ := abs_lt.1 h1
        obtain ⟨p3, p4⟩ := abs_lt.1 h2
        have := congrArg Real.arctan k3
        rw [Real.arctan_tan p3 p4, Real.arctan_tan (by linarith) (by linarith)] at this
        linarith
      · exact Or.inr ⟨hp, cc⟩)
    have h' : Real.sqrt (authalic a b) ^ 2 * (2 * Real.arctan (Real.sin (1 / 2 * b1 + 1 / 2 * b2) / Real.cos (1 / 2 * b2 - 1 / 2 * b1) *
        Real.tan (1 / 2 * (neaOmega (alphaZero alpha1 b1) (neaSigma z2 b2) - neaOmega (alphaZero alpha1 b1) (neaSigma alpha1 b1))))) +
        (foc a b / a) ^ 2 * a ^ 2 * Real.cos (alphaZero alpha1 b1) * Real.sin (alphaZero alpha1 b1) *
          (cosineSumFrom (neaSigma z2 b2) 0 (coefC4 ((foc a b / b) ^ 2) ((foc a b / b) ^ 2 * Real.cos (alphaZero alpha1 b1) ^ 2)) -
            cosineSumFrom (neaSigma alpha1 b1) 0 (coefC4 ((foc a b / b) ^ 2) ((foc a b / b) ^ 2 * Real.cos (alphaZero alpha1 b1) ^ 2))) = v := by
      injection h
    rw [ex, Real.sq_sqrt (show 0 ≤ authalic a b from au0)] at h'
    have hs0 : 0 < Real.sin (alphaZero alpha1 b1) := by rw [n1.s0]; positivity
    have az1 := node_azimuth c1 n1 (by linarith) ha1.le
    have az2 := node_azimuth c2 n2 (by linarith) (by linarith [Real.pi_pos])
    refine ⟨alphaZero alpha1 b1, neaSigma alpha1 b1, neaSigma z2 b2, hs0, node_latitude hb hab n1 h1 e1.symm, az1, node_latitude hb hab n2 h2 e2.symm,
      az2.trans_le zp, ?_⟩
    have k := swept_diff hb hab hs0 (neaSigma alpha1 b1) (neaSigma z2 b2)
    have e : v = swept a b (alphaZero alpha1 b1) (neaSigma z2 b2) - swept a b (alphaZero alpha1 b1) (neaSigma alpha1 b1) := by
      rw [← h', swept, swept, az1, az2, ← hE2]
      field_simp
      ring
    rw [e, ← hE2]
    rw [← hE2, div_pow] at k
    exact k

/-- C175.  The curve of the specification is a geodesic: its direction on the ellipsoid has the azimuth of the specification, and the radius of the
parallel times the sine of the azimuth is the same everywhere (Clairaut's relation).  `Q` is the root in the two radii of curvature. -/
theorem C175_geodesic {a b alpha0 : ℝ} (hb : 0 < b) (hab : b < a) (h0 : 0 < Real.sin alpha0) (s : ℝ) : ∃ rate speed Q : ℝ,
    HasDerivAt (latitude a b alpha0) rate s ∧ 0 < speed ∧ 0 < Q ∧
      Q ^ 2 = a ^ 2 * Real.cos (latitude a b alpha0 s) ^ 2 + b ^ 2 * Real.sin (latitude a b alpha0 s) ^ 2 ∧
      a ^ 2 * b ^ 2 / Q ^ 3 * rate = speed * Real.cos (azimuthAt alpha0 s) ∧
      a ^ 2 * Real.cos (latitude a b alpha0 s) / Q * lonRate a b alpha0 s = speed * Real.sin (azimuthAt alpha0 s) ∧
      a ^ 2 * Real.cos (latitude a b alpha0 s) / Q * Real.sin (azimuthAt alpha0 s) = a * Real.sin alpha0 := by
  have ha : 0 < a := hb.trans hab
  have hE2 := foc_sq hb hab
  obtain ⟨x1, x2⟩ := sine_small h0 s
  have t0 := Real.sin_sq_add_cos_sq alpha0
  have t1 := Real.sin_sq_add_cos_sq s
  obtain ⟨x, hx⟩ : ∃ x, x = Real.cos alpha0 * Real.sin s := ⟨_, rfl⟩
  rw [← hx] at x1 x2
  have hx0 : 0 < 1 - x ^ 2 := by nlinarith
  obtain ⟨c, hc⟩ : ∃ c, c = Real.sqrt (1 - x ^ 2) := ⟨_, rfl⟩
  have c0 : 0 < c := by rw [hc]; exact Real.sqrt_pos.2 hx0
  have c2 : c ^ 2 = 1 - x ^ 2 := by rw [hc]; exact Real.sq_sqrt hx0.le
  obtain ⟨g, hg⟩ : ∃ g, g = Real.sqrt (b ^ 2 * c ^ 2 + a ^ 2 * x ^ 2) := ⟨_, rfl⟩
  have gp : 0 < b ^ 2 * c ^ 2 + a ^ 2 * x ^ 2 := by positivity
  have g0 : 0 < g := by rw [hg]; exact Real.sqrt_pos.2 gp
  have g2 : g ^ 2 = b ^ 2 * c ^ 2 + a ^ 2 * x ^ 2 := by rw [hg]; exact Real.sq_sqrt gp.le
  have lat : latitude a b alpha0 s = Real.arctan (a * x / (b * c)) := by
    unfold latitude reduced
    rw [← hx, Real.tan_arcsin, ← hc]
    congr 1
    field_simp
  have root : Real.sqrt (1 + (a * x / (b * c)) ^ 2) = g / (b * c) := by
    rw [Real.sqrt_eq_iff_eq_sq (by positivity) (by positivity), div_pow, div_pow, g2]
    field_simp
  have cl : Real.cos (latitude a b alpha0 s) = b * c / g := by rw [lat, Real.cos_arctan, root]; field_simp
  have sl : Real.sin (latitude a b alpha0 s) = a * x / g := by rw [lat, Real.sin_arctan, root]; field_simp
  have nrm : (Real.cos alpha0 * Real.cos s) ^ 2 + Real.sin alpha0 ^ 2 = c ^ 2 := by
    rw [c2, hx]
    linear_combination t0 + Real.cos alpha0 ^ 2 * t1
  obtain ⟨a1, a2⟩ := atan2_of_norm nrm c0.le
  have ca : Real.cos (azimuthAt alpha0 s) = Real.cos alpha0 * Real.cos s / c := by
    rw [eq_div_iff c0.ne', mul_comm]; exact a1
  have sa : Real.sin (azimuthAt alpha0 s) = Real.sin alpha0 / c := by
    rw [eq_div_iff c0.ne', mul_comm]; exact a2
  have rate : lonRate a b alpha0 s = Real.sin alpha0 / c ^ 2 * (g / a) := by
    unfold lonRate reduced
    rw [← hx, Real.cos_arcsin, ← hc]
    congr 1
    rw [Real.sqrt_eq_iff_eq_sq _ (by positivity), div_pow, g2]
    · field_simp
      rw [c2]; ring
    · have : 1 - (a ^ 2 - b ^ 2) / a ^ 2 * c ^ 2 = (g / a) ^ 2 := by
        rw [div_pow, g2]; field_simp; rw [c2]; ring
      rw [this]; positivity
  have dl : HasDerivAt (latitude a b alpha0) (a * b * (Real.cos alpha0 * Real.cos s) / (g ^ 2 * c)) s := by
    have e : latitude a b alpha0 = fun s => Real.arctan (a / b * (Real.cos alpha0 * Real.sin s / Real.sqrt (1 - (Real.cos alpha0 * Real.sin s) ^ 2))) := by
      funext t
      unfold latitude reduced
      rw [Real.tan_arcsin]
    rw [e]
    have dx := (Real.hasDerivAt_sin s).const_mul (Real.cos alpha0)
    have dc := ((dx.pow 2).const_sub 1).sqrt (by simp only [Pi.pow_apply]; rw [← hx]; exact hx0.ne')
    have d := ((dx.div dc (by simp only [Pi.pow_apply]; rw [← hx, ← hc]; exact c0.ne')).const_mul (a / b)).arctan
    refine d.congr_deriv ?_
    simp only [Pi.pow_apply, Pi.div_apply]
    rw [← hx, ← hc]
    rw [show 1 + (a / b * (x / c)) ^ 2 = g ^ 2 / (b * c) ^ 2 by rw [g2]; field_simp]
    have xx : x ^ 2 = 1 - c ^ 2 := by linarith
    push_cast
    field_simp
    linear_combination (Real.cos alpha0 * Real.cos s) * xx
  refine ⟨_, g, a * b / g, dl, g0, by positivity, ?_, ?_, ?_, ?_⟩
  · rw [cl, sl]
    field_simp
    rw [c2]; ring
  · rw [ca]; field_simp
  · rw [cl, rate, sa]; field_simp
  · rw [cl, sa]; field_simp

/-- C175.  The series of the code, but for one coefficient, is the integral of the difference quotient of the Taylor polynomial of degree six. -/
theorem C175_series_partial (u k s : ℝ) : HasDerivAt (fun s => cosineSumFrom s 0 (coefC4 u k) + 10 / 9009 * u ^ 3 * k ^ 2 * Real.cos s)
    (-(Real.sin s / 2 * quot u (k * Real.sin s ^ 2))) s := by
  refine ((series_deriv u k s).add ((Real.hasDerivAt_cos s).const_mul (10 / 9009 * u ^ 3 * k ^ 2))).congr_deriv ?_
  ring

/-- C175.  The polynomial replaces the difference quotient of `x + sqrt (1 + 1 / x) * arsinh (sqrt x)`, with an error of the sixth order. -/
theorem C175_quotient (y x : ℝ) (hy : 0 < y) (h : |x| < 1) (hx : x ≠ 0) :
    |((y ^ 2 + Real.sqrt (1 + y ^ 2) * Real.arsinh y / y) - ((y * x) ^ 2 + Real.sqrt (1 + (y * x) ^ 2) * Real.arsinh (y * x) / (y * x))) / (y ^ 2 - (y * x) ^ 2)
      - quot (y ^ 2) ((y * x) ^ 2)| ≤ 3072 / 9009 * (y ^ 2) ^ 6 := by
  have q := quot_error y x hy.le h.le
  have xx : x ^ 2 < 1 := (sq_lt_one_iff_abs_lt_one _).2 h
  have d : 0 < y ^ 2 - (y * x) ^ 2 := by
    rw [mul_pow, ← mul_one_sub]
    exact mul_pos (by positivity) (by linarith)
  unfold wfun at q
  rw [if_neg hy.ne', if_neg (mul_ne_zero hy.ne' hx)] at q
  rw [show ∀ N Q : ℝ, N / (y ^ 2 - (y * x) ^ 2) - Q = (N - (y ^ 2 - (y * x) ^ 2) * Q) / (y ^ 2 - (y * x) ^ 2) from fun N Q => by
    rw [sub_div, mul_div_cancel_left₀ _ d.ne'], abs_div, abs_of_pos d, div_le_iff₀ d]
  refine q.trans (le_of_eq ?_)
  ring

/-- C175 is violated by one coefficient: with the code's one, the derivative of the series is not the polynomial. -/
theorem C175_violated_coefficient {u k s : ℝ} (hu : u ≠ 0) (hk : k ≠ 0) (hs : Real.sin s ≠ 0) :
    ¬ HasDerivAt (fun s => cosineSumFrom s 0 (coefC4 u k)) (-(Real.sin s / 2 * quot u (k * Real.sin s ^ 2))) s := by
  intro h
  have := h.unique (series_deriv u k s)
  have z : 10 / 9009 * u ^ 3 * k ^ 2 * Real.sin s = 0 := by linarith
  have : 10 / 9009 * u ^ 3 * k ^ 2 * Real.sin s ≠ 0 := by positivity
  exact this z

/-- C175.  The area of a side from point to point: that of its canonical configuration, negative when the side runs west. -/
theorem C175_area_partial (root : Root) {a b tol x1 y1 x2 y2 v : ℝ} {i : ℝ × ℝ × ℝ} (hb : 0 < b) (hab : b < a)
    (h : ellipsoidalArea root a b tol x1 y1 x2 y2 = .ok v)
    (hi : ellipsoidalInverse root a b 0 (canonical x1 y1 x2 y2).y1 (canonical x1 y1 x2 y2).x2 (canonical x1 y1 x2 y2).y2 tol = .ok i)
    (h1 : |(canonical x1 y1 x2 y2).y1| < 90) (h2 : |(canonical x1 y1 x2 y2).y2| < 90) (i0 : 0 < i.1) (i1 : i.1 < 180)
    (hp : (canonical x1 y1 x2 y2).y1 + (canonical x1 y1 x2 y2).y2 ≠ 0 ∨ i.1 ≤ 90) :
    ∃ alpha0 s1 s2, 0 < Real.sin alpha0 ∧ latitude a b alpha0 s1 = (canonical x1 y1 x2 y2).y1 * Real.pi / 180 ∧
      azimuthAt alpha0 s1 = i.1 * Real.pi / 180 ∧ latitude a b alpha0 s2 = (canonical x1 y1 x2 y2).y2 * Real.pi / 180 ∧
      azimuthAt alpha0 s2 ≤ Real.pi / 2 ∧
      |v - (if x2 < x1 then -1 else 1) * areaUnder a b alpha0 s1 s2| ≤
        (a ^ 2 - b ^ 2) * (5 / 9009 * ((a ^ 2 - b ^ 2) / b ^ 2) ^ 5 + 768 / 9009 * ((a ^ 2 - b ^ 2) / b ^ 2) ^ 6) * |s2 - s1| := by
  unfold ellipsoidalArea at h
  simp only [bind, Except.bind] at h
  rw [hi] at h
  simp only at h
  have pp := Real.pi_pos
  have ang : ∀ {y : ℝ}, |y| < 90 → |y * Real.pi / 180| < Real.pi / 2 := by
    intro y hy
    obtain ⟨k1, k2⟩ := abs_lt.1 hy
    rw [abs_lt]; constructor <;> nlinarith
  cases hc : ellAreaCore a b ((canonical x1 y1 x2 y2).y1 * Real.pi / 180) ((canonical x1 y1 x2 y2).y2 * Real.pi / 180) (i.1 * Real.pi / 180) with
  | error e => rw [hc] at h; cases h
  | ok w =>
    rw [hc] at h
    obtain ⟨alpha0, s1, s2, k1, k2, k3, k4, k5, k6⟩ := C175_side_partial hb hab (ang h1) (ang h2) (by positivity) (by nlinarith)
      (by
        rcases hp with hp | hp
        · left
          intro z
          apply hp
          have : ((canonical x1 y1 x2 y2).y1 + (canonical x1 y1 x2 y2).y2) * (Real.pi / 180) = 0 := by linarith
          rcases mul_eq_zero.1 this with k | k
          · exact k
          · exact absurd k (by positivity)
        · right
          exact Real.cos_nonneg_of_mem_Icc ⟨by nlinarith, by nlinarith⟩) hc
    refine ⟨alpha0, s1, s2, k1, k2, k3, k4, k5, ?_⟩
    injection h with h
    rw [← h, ← mul_sub, abs_mul]
    have : |(if x2 < x1 then (-1 : ℝ) else 1)| = 1 := by split_ifs <;> simp
    rw [this, one_mul]
    exact k6

/-! ### Examples -/

/-- The side from 30 degrees south to 30 degrees south with azimuth 80 degrees, on an ellipsoid with the axes 2 and 1, has an area. -/
example : ∃ v, ellAreaCore 2 1 (-(Real.pi / 6)) (-(Real.pi / 6)) (4 / 9 * Real.pi) = .ok v := core_parallel _ _ _ _ one_pos one_lt_two

example : ∃ v alpha0 s1 s2, ellAreaCore 2 1 (-(Real.pi / 6)) (-(Real.pi / 6)) (4 / 9 * Real.pi) = .ok v ∧ 0 < Real.sin alpha0 ∧
    |v - areaUnder 2 1 alpha0 s1 s2| ≤ (2 ^ 2 - 1 ^ 2) * (5 / 9009 * ((2 ^ 2 - 1 ^ 2) / 1 ^ 2) ^ 5 + 768 / 9009 * ((2 ^ 2 - 1 ^ 2) / 1 ^ 2) ^ 6) * |s2 - s1| := by
  obtain ⟨v, hv⟩ := core_parallel 2 1 (-(Real.pi / 6)) (4 / 9 * Real.pi) one_pos one_lt_two
  have pp := Real.pi_pos
  have l : |-(Real.pi / 6)| < Real.pi / 2 := by rw [abs_neg, abs_of_pos (by positivity)]; linarith
  obtain ⟨a0, s1, s2, k1, -, -, -, -, k⟩ := C175_side_partial one_pos one_lt_two l l (by positivity) (by linarith)
    (Or.inl (by intro z; linarith)) hv
  exact ⟨v, a0, s1, s2, hv, k1, k⟩

end Karta.Geod.AreaSeries
