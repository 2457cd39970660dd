import Verif.Geod.ForwardSeries

/-!
# The inverse problem on an ellipsoid

The azimuths and the distance that `ellipsoidal_inverse` (karta/geodesy.py 431-640; the model is `ellipsoidalInverse` in `Verif.Geod.Inverse`) gives are
compared with the geodesic between the two points (C177).  The warning about convergence is modelled here.
-/

namespace Karta.Geod.InverseSeries
open Karta Karta.Geod Karta.Geod.Sphere Karta.Geod.AreaSeries Karta.Geod.SeriesBounds Karta.Geod.ForwardSeries
open Karta.Geod.Geodesic hiding turn

/-! ### Model -/

open Classical in
/-- Whether the Newton loop (geodesy.py 518-594) ends with `niter == maxiter`, when this many rounds are left. -/
noncomputable def newtonWarns (a b lambda12 beta1 beta2 tol : ℝ) : Nat → ℝ → Except Err Bool
  | 0, _ => .ok true
  | n + 1, alpha1 => do
    let f := (a - b) / a
    let eccn2 := f * (2 - f)
    let alpha0 := alphaZero alpha1 beta1
    let sigma1 := neaSigma alpha1 beta1
    let omega1 := neaOmega alpha0 sigma1
    let q ← solveNEB alpha0 alpha1 beta1 beta2
    let k2 := eccn2 / (1 - eccn2) * Real.cos alpha0 ^ 2
    let eps := epsOf k2
    let d := lambdaError f lambda12 eps alpha0 sigma1 omega1 q.2.1 q.2.2
    if tol < |d| then
      let alpha1' ← refine a b beta2 k2 eps alpha1 q.1 sigma1 q.2.1 d
      newtonWarns a b lambda12 beta1 beta2 tol n alpha1'
    else .ok (decide (n = 0))

open Classical in
/-- Whether `ellipsoidal_inverse` warns about convergence (geodesy.py 471-600); the branches are those of `triangle`. -/
noncomputable def inverseWarns (root : ℝ → ℝ → (ℝ → ℝ) → ℝ → Except Err ℝ) (a b x1 y1 x2 y2 tol : ℝ) : Except Err Bool :=
  if y1 = y2 ∧ y2 = 0 then .ok false
  else
    let c := canonical x1 y1 x2 y2
    let phi1 := c.y1 * Real.pi / 180
    let phi2 := c.y2 * Real.pi / 180
    let lambda12 := (c.x2 - 0) * Real.pi / 180
    let f := (a - b) / a
    let beta1 := Real.arctan ((1 - f) * Real.tan phi1)
    let beta2 := Real.arctan ((1 - f) * Real.tan phi2)
    if 0 = c.x2 then .ok false
    else if |pyModR lambda12 (2 * Real.pi) - Real.pi| < 1 / 10 ^ 12 then .ok false
    else do
      let alpha1 ← if 87 / 10000 < |lambda12 - Real.pi| ∧ 87 / 10000 < |phi1 + phi2| then
          Except.ok (solveVincenty a f lambda12 phi1 phi2).1
        else solveAstroid root a f lambda12 phi1 phi2
      newtonWarns a b lambda12 beta1 beta2 tol 100 alpha1

/-! ### Specification -/

/-- A geodesic leads from latitude `y1` to latitude `y2`, without turning back; at the ends it has the directions `z1` and `z2`; its length is `d` up to `E`,
and the longitude grows by `lam` along it, up to `F`.  The geodesic is the one that crosses the equator with the azimuth `alpha0`, from arc `s1` to arc
`s2`. -/
def Connects (a b y1 y2 lam z1 z2 d E F : ℝ) : Prop :=
  ∃ alpha0 s1 s2 : ℝ, ∃ i j : ℤ, s1 ≤ s2 ∧ latitude a b alpha0 s1 = y1 ∧ azimuthAt alpha0 s1 = z1 + 2 * Real.pi * i ∧
    latitude a b alpha0 s2 = y2 ∧ azimuthAt alpha0 s2 = z2 + 2 * Real.pi * j ∧
    |pathLength a b alpha0 s1 s2 - d| ≤ E ∧ |pathLongitude a b alpha0 s1 s2 - lam| ≤ F

/-! ### The second point -/

/-- The azimuth at the second point, up to its sign. -/
theorem neb_any {z1 b1 b2 z2 : ℝ} (c1 : 0 < Real.cos b1) (c2 : 0 < Real.cos b2) (h : nebAlpha (alphaZero z1 b1) z1 b1 b2 = .ok z2) :
    0 ≤ z2 ∧ z2 ≤ Real.pi / 2 ∧ Real.sin z2 * Real.cos b2 = |Real.sin z1 * Real.cos b1| := by
  have sz := (node_ok b1 z1 c1.le).s0
  have t1 := Real.sin_sq_add_cos_sq z1
  have s1 : Real.sin z1 ^ 2 = 1 - Real.cos z1 ^ 2 := by linarith
  set D := Real.cos z1 ^ 2 * Real.cos b1 ^ 2 + (Real.cos b2 ^ 2 - Real.cos b1 ^ 2) with hD
  have hD' : D = Real.cos b2 ^ 2 - (Real.sin z1 * Real.cos b1) ^ 2 := by rw [hD, mul_pow, s1]; ring
  by_cases n : D < 0
  · exfalso
    have : 1 < |Real.sin (alphaZero z1 b1) / Real.cos b2| := by
      rw [sz, abs_div, abs_of_pos c2, lt_div_iff₀ c2, one_mul]
      exact lt_of_pow_lt_pow_left₀ 2 (abs_nonneg _) (by rw [sq_abs]; linarith)
    unfold nebAlpha pySqrt at h
    rw [← hD, if_pos n] at h
    simp only [bind, Except.bind, pyDiv, c2.ne', if_false, pyAsin] at h
    rw [if_neg (fun k => absurd (abs_le.2 k) (not_le.2 this))] at h
    cases h
  · have n' := not_lt.1 n
    have q0 : 0 ≤ Real.sqrt D / Real.cos b2 := by positivity
    have q1 : Real.sqrt D / Real.cos b2 ≤ 1 := by
      rw [div_le_one c2, Real.sqrt_le_left c2.le, hD']
      nlinarith [sq_nonneg (Real.sin z1 * Real.cos b1)]
    unfold nebAlpha pySqrt at h
    rw [← hD, if_neg n] at h
    simp only [bind, Except.bind, pyDiv, c2.ne', if_false, pyAcos] at h
    rw [if_pos ⟨by linarith, q1⟩] at h
    cases h
    refine ⟨Real.arccos_nonneg _, Real.arccos_le_pi_div_two.2 q0, ?_⟩
    rw [Real.sin_arccos]
    have : 1 - (Real.sqrt D / Real.cos b2) ^ 2 = (|Real.sin z1 * Real.cos b1| / Real.cos b2) ^ 2 := by
      rw [div_pow, Real.sq_sqrt n', hD', div_pow, sq_abs]; field_simp; ring
    rw [this, Real.sqrt_sq (by positivity)]
    field_simp

/-- Both points lie on one great circle of the auxiliary sphere. -/
theorem second {z1 b1 b2 z2 : ℝ} (c1 : 0 < Real.cos b1) (c2 : 0 < Real.cos b2) (h : nebAlpha (alphaZero z1 b1) z1 b1 b2 = .ok z2) :
    ∃ z, 0 ≤ Real.cos z ∧ (0 ≤ Real.sin z1 → z = z2) ∧ neaSigma z b2 = neaSigma z2 b2 ∧
      Node b2 z (alphaZero z1 b1) (neaSigma z2 b2) (neaOmega (alphaZero z1 b1) (neaSigma z2 b2)) := by
  obtain ⟨p0, p1, p2⟩ := neb_any c1 c2 h
  have hpi := Real.pi_pos
  have cz : 0 ≤ Real.cos z2 := Real.cos_nonneg_of_mem_Icc ⟨by linarith, p1⟩
  by_cases hs : 0 ≤ Real.sin z1
  · rw [abs_of_nonneg (mul_nonneg hs c1.le)] at p2
    refine ⟨z2, cz, fun _ => rfl, rfl, ?_⟩
    rw [← alphaZero_congr p2]
    exact node_ok b2 z2 c2.le
  · have hs' := not_le.1 hs
    rw [abs_of_neg (mul_neg_of_neg_of_pos hs' c1)] at p2
    have e : neaSigma (-z2) b2 = neaSigma z2 b2 := by unfold neaSigma; rw [Real.cos_neg]
    refine ⟨-z2, by rwa [Real.cos_neg], fun k => absurd k hs, e, ?_⟩
    rw [← alphaZero_congr (z2 := -z2) (b2 := b2) (by rw [Real.sin_neg]; linarith), ← e]
    exact node_ok b2 (-z2) c2.le

/-! ### Longitudes on the sphere -/

variable {alpha0 : ℝ}

theorem turn_neg (s1 s2 : ℝ) : turn (-alpha0) s1 s2 = -turn alpha0 s1 s2 := by
  unfold turn
  rw [← intervalIntegral.integral_neg]
  congr 1
  funext t
  rw [Real.sin_neg, Real.cos_neg, neg_div]

theorem turn_continuous (h0 : Real.sin alpha0 ≠ 0) (s1 : ℝ) : Continuous (turn alpha0 s1) :=
  continuous_iff_continuousAt.2 fun s => (intervalIntegral.integral_hasDerivAt_right ((turn_cont h0).intervalIntegrable _ _)
    ((turn_cont h0).stronglyMeasurableAtFilter _ _) (turn_cont h0).continuousAt).continuousAt

theorem turn_nonneg (h0 : 0 < Real.sin alpha0) {s1 s2 : ℝ} (h : s1 ≤ s2) : 0 ≤ turn alpha0 s1 s2 :=
  intervalIntegral.integral_nonneg h fun t _ => (div_pos h0 (small h0.ne' t)).le

/-- Less than a full turn of the arc is less than a full turn of the longitude. -/
theorem turn_lt (h0 : 0 < Real.sin alpha0) {s1 s2 w1 r1 : ℝ} (h : s1 ≤ s2) (h' : s2 < s1 + 2 * Real.pi) (hr : 0 < r1)
    (hr1 : r1 ^ 2 = 1 - (Real.cos alpha0 * Real.sin s1) ^ 2) (c1 : r1 * Real.cos w1 = Real.cos s1) (d1 : r1 * Real.sin w1 = Real.sin alpha0 * Real.sin s1) :
    turn alpha0 s1 s2 < 2 * Real.pi := by
  have hpi := Real.pi_pos
  by_contra hc
  have z : turn alpha0 s1 s1 = 0 := intervalIntegral.integral_same
  obtain ⟨s, ⟨m1, m2⟩, ms⟩ := intermediate_value_Icc h (turn_continuous h0.ne' s1).continuousOn (show 2 * Real.pi ∈ Set.Icc (turn alpha0 s1 s1) (turn alpha0 s1 s2) from
    ⟨by rw [z]; linarith, not_lt.1 hc⟩)
  have rr : Real.sqrt (1 - (Real.cos alpha0 * Real.sin s1) ^ 2) = r1 := by rw [← hr1, Real.sqrt_sq hr.le]
  obtain ⟨t1, t2⟩ := turn_spec h0.ne' s1 s w1 (by rw [rr, c1]) (by rw [rr, d1])
  rw [ms, Real.cos_add_two_pi] at t1
  rw [ms, Real.sin_add_two_pi] at t2
  have rpos : 0 < Real.sqrt (1 - (Real.cos alpha0 * Real.sin s) ^ 2) := Real.sqrt_pos.2 (small h0.ne' s)
  generalize Real.sqrt (1 - (Real.cos alpha0 * Real.sin s) ^ 2) = r at *
  have e1 : r1 * Real.cos s = r * Real.cos s1 := by rw [← c1, ← t1]; ring
  have e2 : r1 * Real.sin s = r * Real.sin s1 := by
    have : Real.sin alpha0 * (r1 * Real.sin s) = Real.sin alpha0 * (r * Real.sin s1) := by
      calc _ = r1 * (Real.sin alpha0 * Real.sin s) := by ring
        _ = r * (Real.sin alpha0 * Real.sin s1) := by rw [← t2, ← d1]; ring
        _ = _ := by ring
    exact mul_left_cancel₀ h0.ne' this
  have q := Real.sin_sq_add_cos_sq s
  have q1 := Real.sin_sq_add_cos_sq s1
  have rsq : r1 ^ 2 = r ^ 2 := by
    calc r1 ^ 2 = (r1 * Real.sin s) ^ 2 + (r1 * Real.cos s) ^ 2 := by linear_combination (-r1 ^ 2) * q
      _ = r ^ 2 := by rw [e1, e2]; linear_combination r ^ 2 * q1
  have req : r1 = r := by
    rcases sq_eq_sq_iff_eq_or_eq_neg.1 rsq with k | k <;> linarith
  rw [req] at e1 e2
  have f1 := mul_left_cancel₀ rpos.ne' e1
  have f2 := mul_left_cancel₀ rpos.ne' e2
  have : s = s1 := angle_eq f1 f2 (by linarith) (by linarith)
  rw [this, z] at ms
  linarith

theorem sub_sine {u v s t r1 r2 k : ℝ} (c1 : r1 * Real.cos u = Real.cos s) (d1 : r1 * Real.sin u = k * Real.sin s)
    (c2 : r2 * Real.cos v = Real.cos t) (d2 : r2 * Real.sin v = k * Real.sin t) : r1 * r2 * Real.sin (v - u) = k * Real.sin (t - s) := by
  rw [Real.sin_sub, Real.sin_sub, ← c1, ← c2]
  linear_combination (r1 * Real.cos u) * d2 - (r2 * Real.cos v) * d1

/-- In the canonical configuration the longitudes on the sphere need no reduction. -/
theorem turn_east (h0 : 0 < Real.sin alpha0) {s1 s2 w1 w2 r1 r2 : ℝ} (h : s1 ≤ s2) (s1l : -Real.pi < s1) (s1u : s1 < 0) (s2l : -(Real.pi / 2) ≤ s2)
    (s2u : s2 ≤ Real.pi / 2) (hr1 : 0 < r1) (hr2 : 0 < r2) (q1 : r1 ^ 2 = 1 - (Real.cos alpha0 * Real.sin s1) ^ 2)
    (q2 : r2 ^ 2 = 1 - (Real.cos alpha0 * Real.sin s2) ^ 2) (c1 : r1 * Real.cos w1 = Real.cos s1) (d1 : r1 * Real.sin w1 = Real.sin alpha0 * Real.sin s1)
    (c2 : r2 * Real.cos w2 = Real.cos s2) (d2 : r2 * Real.sin w2 = Real.sin alpha0 * Real.sin s2) (w1l : -Real.pi ≤ w1) (w1u : w1 ≤ Real.pi)
    (w2l : -Real.pi ≤ w2) (w2u : w2 ≤ Real.pi) : turn alpha0 s1 s2 = w2 - w1 := by
  have hpi := Real.pi_pos
  have sn : Real.sin s1 < 0 := Real.sin_neg_of_neg_of_neg_pi_lt s1u s1l
  have wn : Real.sin w1 < 0 := by
    have : r1 * Real.sin w1 < 0 := by rw [d1]; exact mul_neg_of_pos_of_neg h0 sn
    exact (pos_iff_neg_of_mul_neg this).1 hr1
  have w1n : w1 < 0 := by
    by_contra hc
    exact absurd (Real.sin_nonneg_of_nonneg_of_le_pi (not_lt.1 hc) w1u) (not_le.2 wn)
  have w1p : -Real.pi < w1 := lt_of_le_of_ne w1l (by rintro rfl; simp at wn)
  have cw : 0 ≤ Real.cos w2 := by
    have : 0 ≤ r2 * Real.cos w2 := by rw [c2]; exact Real.cos_nonneg_of_mem_Icc ⟨s2l, s2u⟩
    exact nonneg_of_mul_nonneg_right this hr2
  have v1 : -(Real.pi / 2) ≤ w2 := by
    by_contra hc
    have : Real.cos w2 < 0 := by
      rw [← Real.cos_neg]
      exact Real.cos_neg_of_pi_div_two_lt_of_lt (by linarith) (by linarith)
    linarith
  have v2 : w2 ≤ Real.pi / 2 := by
    by_contra hc
    exact absurd (Real.cos_neg_of_pi_div_two_lt_of_lt (not_le.1 hc) (by linarith)) (not_lt.2 cw)
  have rr1 : Real.sqrt (1 - (Real.cos alpha0 * Real.sin s1) ^ 2) = r1 := by rw [← q1, Real.sqrt_sq hr1.le]
  have rr2 : Real.sqrt (1 - (Real.cos alpha0 * Real.sin s2) ^ 2) = r2 := by rw [← q2, Real.sqrt_sq hr2.le]
  obtain ⟨t1, t2⟩ := turn_spec h0.ne' s1 s2 w1 (by rw [rr1, c1]) (by rw [rr1, d1])
  rw [rr2, ← c2] at t1
  rw [rr2, ← d2] at t2
  have n0 := turn_nonneg h0 h
  have n1 := turn_lt h0 h (by linarith) hr1 q1 c1 d1
  by_cases hk : w1 ≤ w2
  · have := angle_eq (mul_left_cancel₀ hr2.ne' t1) (mul_left_cancel₀ hr2.ne' t2) (by linarith) (by linarith)
    linarith
  · exfalso
    have hk' := not_le.1 hk
    have s2n : s2 < 0 := by
      have : r2 * Real.sin w2 < 0 := mul_neg_of_pos_of_neg hr2 (Real.sin_neg_of_neg_of_neg_pi_lt (by linarith) (by linarith))
      rw [d2] at this
      have := (pos_iff_neg_of_mul_neg this).1 h0
      by_contra hc
      exact absurd (Real.sin_nonneg_of_nonneg_of_le_pi (not_lt.1 hc) (by linarith)) (not_le.2 this)
    have e := sub_sine c1 d1 c2 d2
    have p : 0 ≤ Real.sin (s2 - s1) := Real.sin_nonneg_of_nonneg_of_le_pi (by linarith) (by linarith)
    have m : Real.sin (w2 - w1) < 0 := Real.sin_neg_of_neg_of_neg_pi_lt (by linarith) (by linarith)
    have : r1 * r2 * Real.sin (w2 - w1) < 0 := mul_neg_of_pos_of_neg (mul_pos hr1 hr2) m
    rw [e] at this
    exact absurd (mul_nonneg h0.le p) (not_le.2 this)

theorem turn_exact (h0 : Real.sin alpha0 ≠ 0) {s1 s2 w1 w2 r1 r2 : ℝ} (h : s1 ≤ s2) (s1l : -Real.pi < s1) (s1u : s1 < 0) (s2l : -(Real.pi / 2) ≤ s2)
    (s2u : s2 ≤ Real.pi / 2) (hr1 : 0 < r1) (hr2 : 0 < r2) (q1 : r1 ^ 2 = 1 - (Real.cos alpha0 * Real.sin s1) ^ 2)
    (q2 : r2 ^ 2 = 1 - (Real.cos alpha0 * Real.sin s2) ^ 2) (c1 : r1 * Real.cos w1 = Real.cos s1) (d1 : r1 * Real.sin w1 = Real.sin alpha0 * Real.sin s1)
    (c2 : r2 * Real.cos w2 = Real.cos s2) (d2 : r2 * Real.sin w2 = Real.sin alpha0 * Real.sin s2) (w1l : -Real.pi ≤ w1) (w1u : w1 ≤ Real.pi)
    (w2l : -Real.pi ≤ w2) (w2u : w2 ≤ Real.pi) : turn alpha0 s1 s2 = w2 - w1 := by
  rcases lt_or_gt_of_ne h0 with hn | hp
  · have := turn_east (alpha0 := -alpha0) (w1 := -w1) (w2 := -w2) (by rw [Real.sin_neg]; linarith) h s1l s1u s2l s2u hr1 hr2 (by rwa [Real.cos_neg]) (by rwa [Real.cos_neg])
      (by rwa [Real.cos_neg]) (by rw [Real.sin_neg, Real.sin_neg]; linarith) (by rwa [Real.cos_neg]) (by rw [Real.sin_neg, Real.sin_neg]; linarith)
      (by linarith) (by linarith) (by linarith) (by linarith)
    rw [turn_neg] at this
    linarith
  · exact turn_east hp h s1l s1u s2l s2u hr1 hr2 q1 q2 c1 d1 c2 d2 w1l w1u w2l w2u

/-! ### The geodesic that the loop finds -/

variable {a b : ℝ}

theorem pathLongitude_west (h0 : Real.sin alpha0 ≤ 0) {s1 s2 : ℝ} (h : s1 ≤ s2) : pathLongitude a b alpha0 s1 s2 ≤ 0 := by
  unfold pathLongitude
  have : 0 ≤ ∫ s in s1..s2, -lonRate a b alpha0 s := by
    refine intervalIntegral.integral_nonneg h fun t _ => ?_
    unfold lonRate
    have : Real.sin alpha0 / Real.cos (reduced alpha0 t) ^ 2 ≤ 0 := div_nonpos_of_nonpos_of_nonneg h0 (sq_nonneg _)
    nlinarith [Real.sqrt_nonneg (1 - (a ^ 2 - b ^ 2) / a ^ 2 * Real.cos (reduced alpha0 t) ^ 2)]
  rw [intervalIntegral.integral_neg] at this
  linarith

/-- What is known of the triangle when the loop ends without a warning. -/
structure Settled (a b lambda12 beta1 beta2 tol : ℝ) (t : Tri) : Prop where
  zero : t.alpha0 = alphaZero t.alpha1 beta1
  first : t.sigma1 = neaSigma t.alpha1 beta1
  neb : nebAlpha t.alpha0 t.alpha1 beta1 beta2 = .ok t.alpha2
  last : t.sigma2 = neaSigma t.alpha2 beta2
  err : |(neaOmega t.alpha0 t.sigma2 - neaOmega t.alpha0 t.sigma1) - (a - b) / a * Real.sin t.alpha0 *
    (codeLon ((a - b) / (a + b)) (eps a b t.alpha0) t.sigma2 - codeLon ((a - b) / (a + b)) (eps a b t.alpha0) t.sigma1) - lambda12| ≤ tol

theorem forms (hb : 0 < b) (hab : b < a) : 1 - (a - b) / a = b / a ∧ (a - b) / a * (2 - (a - b) / a) / (1 - (a - b) / a * (2 - (a - b) / a)) =
    (a ^ 2 - b ^ 2) / b ^ 2 ∧ (a - b) / a / (2 - (a - b) / a) = (a - b) / (a + b) := by
  have ha : 0 < a := hb.trans hab
  refine ⟨by field_simp; ring, ?_, ?_⟩
  · have : 1 - (a - b) / a * (2 - (a - b) / a) = (b / a) ^ 2 := by field_simp; ring
    rw [this]; field_simp; ring
  · have : 2 - (a - b) / a = (a + b) / a := by field_simp; ring
    rw [this]; field_simp

theorem settled (hb : 0 < b) (hab : b < a) {lambda12 beta1 beta2 tol : ℝ} {t : Tri} : ∀ (n : Nat) (z : ℝ),
    newton a b lambda12 beta1 beta2 tol n z = .ok t → newtonWarns a b lambda12 beta1 beta2 tol n z = .ok false →
    Settled a b lambda12 beta1 beta2 tol t
  | 0, z, h, _ => by rw [newton] at h; cases h
  | n + 1, z, h, w => by
    obtain ⟨-, f2, f3⟩ := forms hb hab
    rw [newton] at h
    rw [newtonWarns] at w
    dsimp only at h w
    cases hq : nebAlpha (alphaZero z beta1) z beta1 beta2 with
    | error e =>
      simp only [solveNEB, hq, bind, Except.bind] at h
      cases h
    | ok z2 =>
      simp only [solveNEB, hq, bind, Except.bind, f2] at h w
      split at h
      · rename_i hd
        rw [if_pos hd] at w
        cases hr : refine a b beta2 ((a ^ 2 - b ^ 2) / b ^ 2 * Real.cos (alphaZero z beta1) ^ 2) (epsOf ((a ^ 2 - b ^ 2) / b ^ 2 * Real.cos (alphaZero z beta1) ^ 2)) z z2
          (neaSigma z beta1) (atan2 (Real.sin beta2) (Real.cos z2 * Real.cos beta2)) (lambdaError ((a - b) / a) lambda12
            (epsOf ((a ^ 2 - b ^ 2) / b ^ 2 * Real.cos (alphaZero z beta1) ^ 2)) (alphaZero z beta1) (neaSigma z beta1)
            (neaOmega (alphaZero z beta1) (neaSigma z beta1)) (atan2 (Real.sin beta2) (Real.cos z2 * Real.cos beta2))
            (atan2 (Real.sin (alphaZero z beta1) * Real.sin (atan2 (Real.sin beta2) (Real.cos z2 * Real.cos beta2)))
              (Real.cos (atan2 (Real.sin beta2) (Real.cos z2 * Real.cos beta2))))) with
        | error e => rw [hr] at h; cases h
        | ok z' =>
          rw [hr] at h w
          simp only at h w
          split at h
          · rename_i hn
            rw [hn, newtonWarns] at w
            cases w
          · exact settled hb hab n z' h w
      · rename_i hd
        cases h
        refine ⟨rfl, rfl, hq, rfl, ?_⟩
        have := not_lt.1 hd
        unfold lambdaError at this
        dsimp only at this
        rw [f3] at this
        dsimp only
        refine le_trans (le_of_eq ?_) this
        congr 1
        unfold codeLon eps neaOmega neaSigma
        ring

/-- `Connects` in a form that is easier to transform. -/
def Links (a b y1 y2 lam z1 z2 d E F : ℝ) : Prop :=
  ∃ alpha0 s1 s2 r1 r2 : ℝ, s1 ≤ s2 ∧ 0 < r1 ∧ 0 < r2 ∧ latitude a b alpha0 s1 = y1 ∧ latitude a b alpha0 s2 = y2 ∧
    r1 * Real.cos z1 = Real.cos alpha0 * Real.cos s1 ∧ r1 * Real.sin z1 = Real.sin alpha0 ∧
    r2 * Real.cos z2 = Real.cos alpha0 * Real.cos s2 ∧ r2 * Real.sin z2 = Real.sin alpha0 ∧
    |pathLength a b alpha0 s1 s2 - d| ≤ E ∧ |pathLongitude a b alpha0 s1 s2 - lam| ≤ F

theorem Links.connects {y1 y2 lam z1 z2 d E F : ℝ} (h : Links a b y1 y2 lam z1 z2 d E F) : Connects a b y1 y2 lam z1 z2 d E F := by
  obtain ⟨alpha0, s1, s2, r1, r2, h12, p1, p2, l1, l2, c1, d1, c2, d2, e, f⟩ := h
  obtain ⟨i, hi⟩ := atan2_polar_cong p1 z1
  obtain ⟨j, hj⟩ := atan2_polar_cong p2 z2
  refine ⟨alpha0, s1, s2, i, j, h12, l1, ?_, l2, ?_, e, f⟩
  · rw [← hi, c1, d1]; rfl
  · rw [← hj, c2, d2]; rfl

theorem Links.congr {y1 y2 lam z1 z2 z1' z2' d E F : ℝ} (h : Links a b y1 y2 lam z1 z2 d E F) (i j : ℤ) (e1 : z1' = z1 + i * (2 * Real.pi))
    (e2 : z2' = z2 + j * (2 * Real.pi)) : Links a b y1 y2 lam z1' z2' d E F := by
  obtain ⟨alpha0, s1, s2, r1, r2, h12, p1, p2, l1, l2, c1, d1, c2, d2, e, f⟩ := h
  refine ⟨alpha0, s1, s2, r1, r2, h12, p1, p2, l1, l2, ?_, ?_, ?_, ?_, e, f⟩
  · rw [e1, Real.cos_add_int_mul_two_pi, c1]
  · rw [e1, Real.sin_add_int_mul_two_pi, d1]
  · rw [e2, Real.cos_add_int_mul_two_pi, c2]
  · rw [e2, Real.sin_add_int_mul_two_pi, d2]

/-! ### Symmetries -/

theorem Links.mirror {y1 y2 lam z1 z2 d E F : ℝ} (h : Links a b y1 y2 lam z1 z2 d E F) : Links a b y1 y2 (-lam) (-z1) (-z2) d E F := by
  obtain ⟨alpha0, s1, s2, r1, r2, h12, p1, p2, l1, l2, c1, d1, c2, d2, e, f⟩ := h
  have lat : ∀ s, latitude a b (-alpha0) s = latitude a b alpha0 s := by intro s; unfold latitude reduced; rw [Real.cos_neg]
  have len : pathLength a b (-alpha0) s1 s2 = pathLength a b alpha0 s1 s2 := by
    unfold pathLength speed; rw [Real.cos_neg]
  have lon : pathLongitude a b (-alpha0) s1 s2 = -pathLongitude a b alpha0 s1 s2 := by
    unfold pathLongitude
    rw [← intervalIntegral.integral_neg]
    congr 1
    funext t
    unfold lonRate reduced
    rw [Real.cos_neg, Real.sin_neg]
    ring
  refine ⟨-alpha0, s1, s2, r1, r2, h12, p1, p2, by rw [lat, l1], by rw [lat, l2], ?_, ?_, ?_, ?_, by rwa [len], ?_⟩
  · rw [Real.cos_neg, Real.cos_neg, c1]
  · rw [Real.sin_neg, Real.sin_neg, mul_neg, d1]
  · rw [Real.cos_neg, Real.cos_neg, c2]
  · rw [Real.sin_neg, Real.sin_neg, mul_neg, d2]
  · rw [lon, ← abs_neg]
    convert f using 2
    ring

theorem reduced_south (alpha0 s : ℝ) : reduced alpha0 (s + Real.pi) = -reduced alpha0 s := by
  unfold reduced
  rw [Real.sin_add_pi, mul_neg, Real.arcsin_neg]

theorem Links.south {y1 y2 lam z1 z2 d E F : ℝ} (h : Links a b y1 y2 lam z1 z2 d E F) :
    Links a b (-y1) (-y2) lam (Real.pi - z1) (Real.pi - z2) d E F := by
  obtain ⟨alpha0, s1, s2, r1, r2, h12, p1, p2, l1, l2, c1, d1, c2, d2, e, f⟩ := h
  have lat : ∀ s, latitude a b alpha0 (s + Real.pi) = -latitude a b alpha0 s := by
    intro s
    unfold latitude
    rw [reduced_south, Real.tan_neg, mul_neg, Real.arctan_neg]
  have len : pathLength a b alpha0 (s1 + Real.pi) (s2 + Real.pi) = pathLength a b alpha0 s1 s2 := by
    unfold pathLength
    rw [← intervalIntegral.integral_comp_add_right]
    congr 1
    funext t
    unfold speed
    rw [Real.sin_add_pi, mul_neg, neg_sq]
  have lon : pathLongitude a b alpha0 (s1 + Real.pi) (s2 + Real.pi) = pathLongitude a b alpha0 s1 s2 := by
    unfold pathLongitude
    rw [← intervalIntegral.integral_comp_add_right]
    congr 1
    funext t
    unfold lonRate
    rw [reduced_south, Real.cos_neg]
  refine ⟨alpha0, s1 + Real.pi, s2 + Real.pi, r1, r2, by linarith, p1, p2, by rw [lat, l1], by rw [lat, l2], ?_, ?_, ?_, ?_, by rwa [len], by rwa [lon]⟩
  · rw [Real.cos_pi_sub, Real.cos_add_pi, mul_neg, mul_neg, c1]
  · rw [Real.sin_pi_sub, d1]
  · rw [Real.cos_pi_sub, Real.cos_add_pi, mul_neg, mul_neg, c2]
  · rw [Real.sin_pi_sub, d2]

theorem reduced_swap (alpha0 s : ℝ) : reduced alpha0 (Real.pi - s) = reduced alpha0 s := by
  unfold reduced
  rw [Real.sin_pi_sub]

theorem Links.swap {y1 y2 lam z1 z2 d E F : ℝ} (h : Links a b y1 y2 lam z1 z2 d E F) :
    Links a b y2 y1 lam (Real.pi - z2) (Real.pi - z1) d E F := by
  obtain ⟨alpha0, s1, s2, r1, r2, h12, p1, p2, l1, l2, c1, d1, c2, d2, e, f⟩ := h
  have lat : ∀ s, latitude a b alpha0 (Real.pi - s) = latitude a b alpha0 s := by
    intro s
    unfold latitude
    rw [reduced_swap]
  have len : pathLength a b alpha0 (Real.pi - s2) (Real.pi - s1) = pathLength a b alpha0 s1 s2 := by
    unfold pathLength
    rw [← intervalIntegral.integral_comp_sub_left]
    congr 1
    funext t
    unfold speed
    rw [Real.sin_pi_sub]
  have lon : pathLongitude a b alpha0 (Real.pi - s2) (Real.pi - s1) = pathLongitude a b alpha0 s1 s2 := by
    unfold pathLongitude
    rw [← intervalIntegral.integral_comp_sub_left]
    congr 1
    funext t
    unfold lonRate
    rw [reduced_swap]
  refine ⟨alpha0, Real.pi - s2, Real.pi - s1, r2, r1, by linarith, p2, p1, by rw [lat, l2], by rw [lat, l1], ?_, ?_, ?_, ?_, by rwa [len], by rwa [lon]⟩
  · rw [Real.cos_pi_sub, Real.cos_pi_sub, mul_neg, mul_neg, c2]
  · rw [Real.sin_pi_sub, d2]
  · rw [Real.cos_pi_sub, Real.cos_pi_sub, mul_neg, mul_neg, c1]
  · rw [Real.sin_pi_sub, d1]

/-- Undoing the canonical configuration. -/
theorem links_undo {x1 y1 x2 y2 z1 z2 d E F : ℝ}
    (h : Links a b (rad (canonical x1 y1 x2 y2).y1) (rad (canonical x1 y1 x2 y2).y2) (rad (canonical x1 y1 x2 y2).x2) z1 z2 d E F) :
    Links a b (rad y1) (rad y2) (rad (reduceDeg (x2 - x1))) (undo (canonical x1 y1 x2 y2) z1 z2).1 (undo (canonical x1 y1 x2 y2) z1 z2).2 d E F := by
  set c := canonical x1 y1 x2 y2 with hc
  set x := reduceDeg (x2 - x1) with hx
  obtain ⟨p, hp⟩ : ∃ p : ℝ × ℝ, p = if c.xflip then (-z1, -z2) else (z1, z2) := ⟨_, rfl⟩
  have hA : Links a b (rad c.y1) (rad c.y2) (rad x) p.1 p.2 d E F := by
    by_cases hm : x < 0 ∨ 180 < x
    · have e1 : c.xflip = true := by show decide _ = true; exact decide_eq_true hm
      have e2 : c.x2 = -x := by show (if x < 0 ∨ 180 < x then _ else _) = _; rw [if_pos hm]
      rw [e1, if_pos rfl] at hp
      rw [hp]
      rw [e2] at h
      have := h.mirror
      rw [rad_neg, neg_neg] at this
      exact this
    · have e1 : c.xflip = false := by show decide _ = false; exact decide_eq_false hm
      have e2 : c.x2 = x := by show (if x < 0 ∨ 180 < x then _ else _) = _; rw [if_neg hm]
      rw [e1, if_neg (by simp)] at hp
      rw [hp]
      rw [e2] at h
      exact h
  obtain ⟨q, hq⟩ : ∃ q : ℝ × ℝ, q = if c.yflip then (Real.pi - p.2, Real.pi - p.1) else p := ⟨_, rfl⟩
  have hu : undo c z1 z2 = if c.ysignswap then (Real.pi - q.1, Real.pi - q.2) else q := by
    unfold undo
    rw [hq, hp]
  have y1e : c.y1 = if 0 < (if |y1| < |y2| then y2 else y1) then -(if |y1| < |y2| then y2 else y1)
    else (if |y1| < |y2| then y2 else y1) := rfl
  have y2e : c.y2 = if 0 < (if |y1| < |y2| then y2 else y1) then -(if |y1| < |y2| then y1 else y2)
    else (if |y1| < |y2| then y1 else y2) := rfl
  rw [hu]
  by_cases hf : |y1| < |y2|
  · have f1 : c.yflip = true := decide_eq_true hf
    rw [f1, if_pos rfl] at hq
    simp only [hf, if_true] at y1e y2e
    by_cases hs : 0 < y2
    · have f2 : c.ysignswap = true := by
        show decide (0 < (if |y1| < |y2| then y2 else y1)) = true
        rw [if_pos hf]; exact decide_eq_true hs
      rw [if_pos hs] at y1e y2e
      rw [f2, if_pos rfl, hq]
      rw [y1e, y2e] at hA
      have := hA.swap.south
      rw [rad_neg, rad_neg, neg_neg, neg_neg] at this
      exact this
    · have f2 : c.ysignswap = false := by
        show decide (0 < (if |y1| < |y2| then y2 else y1)) = false
        rw [if_pos hf]; exact decide_eq_false hs
      rw [if_neg hs] at y1e y2e
      rw [f2, if_neg (by simp), hq]
      rw [y1e, y2e] at hA
      exact hA.swap
  · have f1 : c.yflip = false := decide_eq_false hf
    rw [f1, if_neg (by simp)] at hq
    simp only [hf, if_false] at y1e y2e
    by_cases hs : 0 < y1
    · have f2 : c.ysignswap = true := by
        show decide (0 < (if |y1| < |y2| then y2 else y1)) = true
        rw [if_neg hf]; exact decide_eq_true hs
      rw [if_pos hs] at y1e y2e
      rw [f2, if_pos rfl, hq]
      rw [y1e, y2e] at hA
      have := hA.south
      rw [rad_neg, rad_neg, neg_neg, neg_neg] at this
      exact this
    · have f2 : c.ysignswap = false := by
        show decide (0 < (if |y1| < |y2| then y2 else y1)) = false
        rw [if_neg hf]; exact decide_eq_false hs
      rw [if_neg hs] at y1e y2e
      rw [f2, if_neg (by simp), hq]
      rw [y1e, y2e] at hA
      exact hA

/-! ### The two kinds of geodesics -/

theorem quad_ge {k m : ℝ} (k0 : 0 ≤ k) (k1 : k ≤ 1) (m0 : 0 ≤ m) (m1 : m ≤ 1) : k ^ 2 ≤ 1 - (1 - k ^ 2) * m ^ 2 ∧ 1 - (1 - k ^ 2) * m ^ 2 ≤ 1 := by
  have a1 : 0 ≤ 1 - k ^ 2 := by nlinarith
  have a2 : 0 ≤ 1 - m ^ 2 := by nlinarith
  constructor
  · nlinarith [mul_nonneg a1 a2]
  · nlinarith [mul_nonneg a1 (sq_nonneg m)]

theorem scale_le {n d : ℝ} (n0 : 0 ≤ n) (h : d ≤ 33 / 7) : 70 * n * d ≤ 330 * n := by nlinarith

theorem arc_error (hb : 0 < b) (hab : b < a) (hn : (a - b) / (a + b) ≤ 1 / 10) {s1 s2 D : ℝ} (h : |s2 - s1| ≤ D) :
    |pathLength a b alpha0 s1 s2 - b * (codeArc (eps a b alpha0) s2 - codeArc (eps a b alpha0) s1)| ≤ 16 * D * ((a - b) / (a + b)) ^ 7 * b := by
  rw [abs_sub_comm]
  refine (arc_close hb hab hn s1 s2).trans ?_
  obtain ⟨e0, -, e2, -⟩ := eps_spec (alpha0 := alpha0) hb hab
  have p := pow_le_pow_left₀ e0 e2 7
  have p0 : 0 ≤ eps a b alpha0 ^ 7 := by positivity
  calc b * (16 * eps a b alpha0 ^ 7) * |s2 - s1| = b * 16 * (eps a b alpha0 ^ 7 * |s2 - s1|) := by ring
    _ ≤ b * 16 * (((a - b) / (a + b)) ^ 7 * D) := by
      refine mul_le_mul_of_nonneg_left ?_ (by linarith)
      exact mul_le_mul p h (abs_nonneg _) (p0.trans p)
    _ = _ := by ring

theorem reduced_mono (hb : 0 < b) (hab : b < a) {p1 p2 : ℝ} (h1 : -(Real.pi / 2) < p1) (h2 : p2 < Real.pi / 2) (h : p1 ≤ p2) :
    Real.arctan (b / a * Real.tan p1) ≤ Real.arctan (b / a * Real.tan p2) := by
  have ha : 0 < a := hb.trans hab
  refine Real.arctan_le_arctan_iff.2 (mul_le_mul_of_nonneg_left ?_ (by positivity))
  rcases h.lt_or_eq with k | k
  · exact (Real.tan_lt_tan_of_lt_of_lt_pi_div_two h1 h2 k).le
  · rw [k]

/-- The loop of the canonical configuration. -/
theorem core (hb : 0 < b) (hab : b < a) (hn : (a - b) / (a + b) ≤ 1 / 10) {p1 p2 lam tol : ℝ} {t : Tri} (h1 : -(Real.pi / 2) < p1) (h2 : p2 < Real.pi / 2)
    (hneg : p1 < 0) (h12 : p1 ≤ p2) (hlam : tol + 330 * ((a - b) / (a + b)) ^ 7 < lam)
    (S : Settled a b lam (Real.arctan (b / a * Real.tan p1)) (Real.arctan (b / a * Real.tan p2)) tol t) :
    Links a b p1 p2 lam t.alpha1 t.alpha2 (b * (codeArc (eps a b t.alpha0) t.sigma2 - codeArc (eps a b t.alpha0) t.sigma1))
      (76 * ((a - b) / (a + b)) ^ 7 * b) (tol + 330 * ((a - b) / (a + b)) ^ 7) := by
  have ha : 0 < a := hb.trans hab
  have hpi := Real.pi_pos
  have hpi4 := Real.pi_lt_d4
  obtain ⟨b1, hb1⟩ : ∃ x, x = Real.arctan (b / a * Real.tan p1) := ⟨_, rfl⟩
  obtain ⟨b2, hb2⟩ : ∃ x, x = Real.arctan (b / a * Real.tan p2) := ⟨_, rfl⟩
  have hb12 : b1 ≤ b2 := by rw [hb1, hb2]; exact reduced_mono hb hab h1 h2 h12
  have b1n : b1 < 0 := by
    rw [hb1, Real.arctan_lt_zero]
    exact mul_neg_of_pos_of_neg (by positivity) (Real.tan_neg_of_neg_of_pi_div_two_lt hneg h1)
  have b1r : -(Real.pi / 2) < b1 := by rw [hb1]; exact Real.neg_pi_div_two_lt_arctan _
  have b2r : b2 < Real.pi / 2 := by rw [hb2]; exact Real.arctan_lt_pi_div_two _
  have c1 : 0 < Real.cos b1 := by rw [hb1]; exact Real.cos_arctan_pos _
  have c2 : 0 < Real.cos b2 := by rw [hb2]; exact Real.cos_arctan_pos _
  rw [← hb1, ← hb2] at S
  obtain ⟨z0, alpha1, alpha2, s1, s2⟩ := t
  obtain ⟨S0, S1, S2, S3, S4⟩ := S
  dsimp only at S0 S1 S2 S3 S4 ⊢
  have N1 := node_ok b1 alpha1 c1.le
  rw [S0] at S2
  obtain ⟨z, zc, zz, -, N2⟩ := second c1 c2 S2
  rw [← S0, ← S1] at N1
  rw [← S0, ← S3] at N2
  have sb1 : Real.sin b1 < 0 := Real.sin_neg_of_neg_of_neg_pi_lt b1n (by linarith)
  have sb12 : Real.sin b1 ≤ Real.sin b2 := Real.sin_le_sin_of_le_of_le_pi_div_two b1r.le b2r.le hb12
  have c0 : 0 < Real.cos z0 := lt_of_le_of_ne N1.c0 (by
    intro h
    have := N1.z
    rw [← h, zero_mul] at this
    linarith)
  have m1 : -Real.pi < s1 ∧ s1 ≤ Real.pi := by rw [S1]; exact atan2_mem _ _
  have m2 : -Real.pi < s2 ∧ s2 ≤ Real.pi := by rw [S3]; exact atan2_mem _ _
  have ss1 : Real.sin s1 < 0 := by
    have : Real.cos z0 * Real.sin s1 < 0 := by rw [N1.z]; exact sb1
    exact (pos_iff_neg_of_mul_neg this).1 c0
  have s1n : s1 < 0 := by
    by_contra hc
    exact absurd (Real.sin_nonneg_of_nonneg_of_le_pi (not_lt.1 hc) m1.2) (not_le.2 ss1)
  have cs2 : 0 ≤ Real.cos s2 := by
    have : 0 ≤ Real.cos z0 * Real.cos s2 := by rw [N2.n]; exact mul_nonneg zc c2.le
    exact nonneg_of_mul_nonneg_right this c0
  have v1 : -(Real.pi / 2) ≤ s2 := by
    by_contra hc
    have : Real.cos s2 < 0 := by
      rw [← Real.cos_neg]
      exact Real.cos_neg_of_pi_div_two_lt_of_lt (by linarith) (by linarith)
    linarith
  have v2 : s2 ≤ Real.pi / 2 := by
    by_contra hc
    exact absurd (Real.cos_neg_of_pi_div_two_lt_of_lt (not_le.1 hc) (by linarith)) (not_lt.2 cs2)
  have hs12 : s1 ≤ s2 := by
    by_contra hc
    have hc' := not_le.1 hc
    have : Real.sin s2 < Real.sin s1 := Real.sin_lt_sin_of_lt_of_le_pi_div_two v1 (by linarith) hc'
    have : Real.cos z0 * Real.sin s2 < Real.cos z0 * Real.sin s1 := mul_lt_mul_of_pos_left this c0
    rw [N1.z, N2.z] at this
    linarith
  have D : |s2 - s1| ≤ 471 / 100 + 1 / 400 := by rw [abs_of_nonneg (by linarith)]; norm_num at hpi4 ⊢; linarith
  obtain ⟨w1, hw1⟩ : ∃ x, x = neaOmega z0 s1 := ⟨_, rfl⟩
  obtain ⟨w2, hw2⟩ : ∃ x, x = neaOmega z0 s2 := ⟨_, rfl⟩
  rw [← hw1] at N1
  rw [← hw2] at N2
  rw [← hw1, ← hw2] at S4
  have mw1 : -Real.pi < w1 ∧ w1 ≤ Real.pi := by rw [hw1]; exact atan2_mem _ _
  have mw2 : -Real.pi < w2 ∧ w2 ≤ Real.pi := by rw [hw2]; exact atan2_mem _ _
  have nn : 0 ≤ ((a - b) / (a + b)) ^ 7 := pow_nonneg (div_nonneg (by linarith) (by linarith)) 7
  have err : Real.sin z0 ≠ 0 → |pathLongitude a b z0 s1 s2 - lam| ≤ tol + 330 * ((a - b) / (a + b)) ^ 7 := by
    intro h0
    have T := turn_exact h0 hs12 m1.1 s1n v1 v2 c1 c2 (by rw [N1.z]; linarith [Real.sin_sq_add_cos_sq b1]) (by rw [N2.z]; linarith [Real.sin_sq_add_cos_sq b2])
      N1.cw N1.sw N2.cw N2.sw mw1.1.le mw1.2 mw2.1.le mw2.2
    have L := lon_close hb hab hn h0 s1 s2
    rw [T] at L
    have L2 : 70 * ((a - b) / (a + b)) ^ 7 * |s2 - s1| ≤ 330 * ((a - b) / (a + b)) ^ 7 := by
      refine scale_le nn (D.trans (by norm_num))
    have L3 := abs_le.1 (L.trans L2)
    have L4 := abs_le.1 S4
    rw [abs_le]
    constructor <;> linarith only [L3.1, L3.2, L4.1, L4.2]
  have pos : 0 < Real.sin alpha1 := by
    by_contra hc
    have hc' := not_lt.1 hc
    have sz : Real.sin z0 ≤ 0 := by rw [N1.s0]; exact mul_nonpos_of_nonpos_of_nonneg hc' c1.le
    rcases sz.lt_or_eq with k | k
    · have := abs_le.1 (err k.ne)
      linarith [pathLongitude_west (a := a) (b := b) sz hs12]
    · have e1 : Real.sin w1 = 0 := by
        have := N1.sw
        rw [k, zero_mul] at this
        exact (mul_eq_zero.1 this).resolve_left c1.ne'
      have e2 : Real.sin w2 = 0 := by
        have := N2.sw
        rw [k, zero_mul] at this
        exact (mul_eq_zero.1 this).resolve_left c2.ne'
      have w1p : 0 ≤ w1 := by
        by_contra hc
        exact absurd (Real.sin_neg_of_neg_of_neg_pi_lt (not_le.1 hc) mw1.1) (by rw [e1]; exact lt_irrefl _)
      have w2p : w2 ≤ 0 := by
        by_contra hc
        have w2pi : w2 = Real.pi := by
          by_contra hne
          have := Real.sin_pos_of_pos_of_lt_pi (not_le.1 hc) (lt_of_le_of_ne mw2.2 hne)
          linarith
        have := N2.cw
        rw [w2pi, Real.cos_pi] at this
        linarith
      rw [k, mul_zero, zero_mul] at S4
      have := abs_le.1 S4
      linarith [this.1]
  have h0 : Real.sin z0 ≠ 0 := by rw [N1.s0]; exact (mul_pos pos c1).ne'
  have zeq := zz pos.le
  subst zeq
  refine ⟨z0, s1, s2, Real.cos b1, Real.cos b2, hs12, c1, c2, node_latitude hb hab N1 ?_ hb1, node_latitude hb hab N2 ?_ hb2, ?_, ?_, ?_, ?_, ?_, err h0⟩
  · rw [abs_lt]; constructor <;> linarith
  · rw [abs_lt]; constructor <;> linarith
  · rw [N1.n, mul_comm]
  · rw [N1.s0, mul_comm]
  · rw [N2.n, mul_comm]
  · rw [N2.s0, mul_comm]
  · refine (arc_error hb hab hn D).trans (mul_le_mul_of_nonneg_right (mul_le_mul_of_nonneg_right (by norm_num) nn) hb.le)

/-- A meridian. -/
theorem meridian (hb : 0 < b) (hab : b < a) (hn : (a - b) / (a + b) ≤ 1 / 10) {p1 p2 : ℝ} (h1 : -(Real.pi / 2) < p1) (h2 : p2 < Real.pi / 2)
    (h12 : p1 ≤ p2) : Links a b p1 p2 0 0 0 (b * (codeArc (eps a b 0) (Real.arctan (b / a * Real.tan p2)) -
      codeArc (eps a b 0) (Real.arctan (b / a * Real.tan p1)))) (76 * ((a - b) / (a + b)) ^ 7 * b) 0 := by
  have ha : 0 < a := hb.trans hab
  have hpi := Real.pi_pos
  have hpi4 := Real.pi_lt_d4
  have lat : ∀ p : ℝ, -(Real.pi / 2) < p → p < Real.pi / 2 → latitude a b 0 (Real.arctan (b / a * Real.tan p)) = p := by
    intro p k1 k2
    unfold latitude reduced
    rw [Real.cos_zero, one_mul, Real.arcsin_sin (Real.neg_pi_div_two_lt_arctan _).le (Real.arctan_lt_pi_div_two _).le, Real.tan_arctan,
      show a / b * (b / a * Real.tan p) = Real.tan p by field_simp, Real.arctan_tan k1 k2]
  have lon : ∀ s1 s2 : ℝ, pathLongitude a b 0 s1 s2 = 0 := by
    intro s1 s2
    unfold pathLongitude lonRate
    simp
  have nn : 0 ≤ ((a - b) / (a + b)) ^ 7 := pow_nonneg (div_nonneg (by linarith) (by linarith)) 7
  obtain ⟨b1, hb1⟩ : ∃ x, x = Real.arctan (b / a * Real.tan p1) := ⟨_, rfl⟩
  obtain ⟨b2, hb2⟩ : ∃ x, x = Real.arctan (b / a * Real.tan p2) := ⟨_, rfl⟩
  have hb12 : b1 ≤ b2 := by rw [hb1, hb2]; exact reduced_mono hb hab h1 h2 h12
  have b1r : -(Real.pi / 2) < b1 := by rw [hb1]; exact Real.neg_pi_div_two_lt_arctan _
  have b2r : b2 < Real.pi / 2 := by rw [hb2]; exact Real.arctan_lt_pi_div_two _
  have c1 : 0 < Real.cos b1 := by rw [hb1]; exact Real.cos_arctan_pos _
  have c2 : 0 < Real.cos b2 := by rw [hb2]; exact Real.cos_arctan_pos _
  rw [← hb1, ← hb2]
  refine ⟨0, b1, b2, Real.cos b1, Real.cos b2, hb12, c1, c2, by rw [hb1]; exact lat p1 h1 (by linarith), by rw [hb2]; exact lat p2 (by linarith) h2, by simp, by simp,
    by simp, by simp, ?_, by rw [lon]; simp⟩
  have D : |b2 - b1| ≤ 471 / 100 + 1 / 400 := by rw [abs_of_nonneg (by linarith)]; norm_num at hpi4 ⊢; linarith
  exact (arc_error hb hab hn D).trans (mul_le_mul_of_nonneg_right (mul_le_mul_of_nonneg_right (by norm_num) nn) hb.le)

/-! ### C177 -/

theorem mod_small {x : ℝ} (h0 : 0 ≤ x) (h1 : x < 2 * Real.pi) : pyModR x (2 * Real.pi) = x := by
  have hpi := Real.pi_pos
  unfold pyModR
  have : ⌊x / (2 * Real.pi)⌋ = 0 := by
    rw [Int.floor_eq_zero_iff]
    exact ⟨by positivity, by rw [div_lt_one (by positivity)]; exact h1⟩
  rw [this]
  simp

/-- The code after the branches. -/
theorem finish {root : ℝ → ℝ → (ℝ → ℝ) → ℝ → Except Err ℝ} (hb : 0 < b) (hab : b < a) {x1 y1 x2 y2 tol az baz s E F : ℝ} (hne : y1 ≠ 0 ∨ y2 ≠ 0)
    (h : ellipsoidalInverse root a b x1 y1 x2 y2 tol = .ok (az, baz, s))
    (T : ∀ t, triangle root a b tol (canonical x1 y1 x2 y2) = .ok t → Links a b (rad (canonical x1 y1 x2 y2).y1) (rad (canonical x1 y1 x2 y2).y2)
      (rad (canonical x1 y1 x2 y2).x2) t.alpha1 t.alpha2 (b * (codeArc (eps a b t.alpha0) t.sigma2 - codeArc (eps a b t.alpha0) t.sigma1)) E F) :
    Connects a b (rad y1) (rad y2) (rad (reduceDeg (x2 - x1))) (rad az) (rad baz + Real.pi) s E F := by
  obtain ⟨-, f2, -⟩ := forms hb hab
  unfold ellipsoidalInverse at h
  rw [if_neg (by rintro ⟨h, h'⟩; exact hne.elim (fun w => w (h.trans h')) (fun w => w h'))] at h
  dsimp only at h
  cases ht : triangle root a b tol (canonical x1 y1 x2 y2) with
  | error e => rw [ht] at h; cases h
  | ok t =>
    rw [ht] at h
    simp only [bind, Except.bind, Except.ok.injEq, Prod.mk.injEq, f2] at h
    obtain ⟨h1, h2, h3⟩ := h
    have L := links_undo (T t ht)
    obtain ⟨i, hi⟩ := pyModR_cong ((undo (canonical x1 y1 x2 y2) t.alpha1 t.alpha2).1 * 180 / Real.pi + 180) 360
    obtain ⟨j, hj⟩ := pyModR_cong (((undo (canonical x1 y1 x2 y2) t.alpha1 t.alpha2).2 + Real.pi) * 180 / Real.pi + 180) 360
    have hpi := Real.pi_pos
    have r1 : rad az = (undo (canonical x1 y1 x2 y2) t.alpha1 t.alpha2).1 + i * (2 * Real.pi) := by
      rw [← h1, hi]; unfold rad; field_simp; ring
    have r2 : rad baz + Real.pi = (undo (canonical x1 y1 x2 y2) t.alpha1 t.alpha2).2 + (j + 1 : ℤ) * (2 * Real.pi) := by
      rw [← h2, hj]; unfold rad; push_cast; field_simp; ring
    have hs : b * (codeArc (eps a b t.alpha0) t.sigma2 - codeArc (eps a b t.alpha0) t.sigma1) = s := by
      rw [← h3]; unfold codeArc eps; ring
    rw [hs] at L
    exact (L.congr i (j + 1) r1 r2).connects

theorem canonical_range {x1 y1 x2 y2 : ℝ} (hy1 : -90 < y1) (hy1' : y1 < 90) (hy2 : -90 < y2) (hy2' : y2 < 90) (hne : y1 ≠ 0 ∨ y2 ≠ 0) :
    -(Real.pi / 2) < rad (canonical x1 y1 x2 y2).y1 ∧ rad (canonical x1 y1 x2 y2).y1 < 0 ∧
      rad (canonical x1 y1 x2 y2).y1 ≤ rad (canonical x1 y1 x2 y2).y2 ∧ rad (canonical x1 y1 x2 y2).y2 < Real.pi / 2 := by
  have hpi := Real.pi_pos
  obtain ⟨k1, k2, k3, k4, k5, k6, k7, k8⟩ := canonical_ok x1 y1 x2 y2
  have hlo : -90 < (canonical x1 y1 x2 y2).y1 := by
    rcases k8 with ⟨h, -⟩ | ⟨h, -⟩ | ⟨h, -⟩ | ⟨h, -⟩ <;> rw [h] <;> linarith
  have hneg : (canonical x1 y1 x2 y2).y1 < 0 := by
    rcases k1.lt_or_eq with h | h
    · exact h
    · exfalso
      rw [h] at k2 k3
      have h2 : (canonical x1 y1 x2 y2).y2 = 0 := by linarith
      rw [h, h2] at k8
      rcases k8 with ⟨u, v⟩ | ⟨u, v⟩ | ⟨u, v⟩ | ⟨u, v⟩
      · exact hne.elim (fun w => w u.symm) (fun w => w v.symm)
      · exact hne.elim (fun w => w (by linarith)) (fun w => w (by linarith))
      · exact hne.elim (fun w => w v.symm) (fun w => w u.symm)
      · exact hne.elim (fun w => w (by linarith)) (fun w => w (by linarith))
  generalize (canonical x1 y1 x2 y2).y1 = u at *
  generalize (canonical x1 y1 x2 y2).y2 = v at *
  unfold rad
  refine ⟨by nlinarith, by nlinarith, ?_, by nlinarith⟩
  have := mul_le_mul_of_nonneg_left k2 hpi.le
  linarith

/-- C177.  On an ellipsoid whose third flattening `n` is at most a tenth, an answer of the inverse problem that comes without a warning is right: a geodesic
leaves the first position with the azimuth `az`, reaches the latitude of the second and the azimuth opposite to `baz` after the distance `s`, up to an error
of the seventh order in `n`, and the longitude there is that of the second position, up to the tolerance and an error of the seventh order.  The
positions must not be both on the equator, and their meridians must be neither the same nor opposite, up to these errors. -/
theorem C177_inverse (root : ℝ → ℝ → (ℝ → ℝ) → ℝ → Except Err ℝ) {a b x1 y1 x2 y2 tol az baz s : ℝ} (hb : 0 < b) (hab : b < a)
    (hn : (a - b) / (a + b) ≤ 1 / 10) (ht : 0 ≤ tol) (hy1 : -90 < y1) (hy1' : y1 < 90) (hy2 : -90 < y2) (hy2' : y2 < 90) (hne : y1 ≠ 0 ∨ y2 ≠ 0)
    (hx : tol + 330 * ((a - b) / (a + b)) ^ 7 < |rad (reduceDeg (x2 - x1))|) (hx' : |rad (reduceDeg (x2 - x1))| ≤ Real.pi - 1 / 10 ^ 12)
    (h : ellipsoidalInverse root a b x1 y1 x2 y2 tol = .ok (az, baz, s)) (w : inverseWarns root a b x1 y1 x2 y2 tol = .ok false) :
    Connects a b (rad y1) (rad y2) (rad (reduceDeg (x2 - x1))) (rad az) (rad baz + Real.pi) s
      (76 * ((a - b) / (a + b)) ^ 7 * b) (tol + 330 * ((a - b) / (a + b)) ^ 7) := by
  have hpi := Real.pi_pos
  obtain ⟨f1, f2, -⟩ := forms hb hab
  obtain ⟨r1, r2, r3, r4⟩ := canonical_range (x1 := x1) (x2 := x2) hy1 hy1' hy2 hy2' hne
  obtain ⟨-, -, -, k4, -, k6, -, -⟩ := canonical_ok x1 y1 x2 y2
  have nn : 0 ≤ ((a - b) / (a + b)) ^ 7 := pow_nonneg (div_nonneg (by linarith) (by linarith)) 7
  have hxe : rad (canonical x1 y1 x2 y2).x2 = |rad (reduceDeg (x2 - x1))| := by
    rw [k6]; unfold rad; rw [abs_div, abs_mul, abs_of_pos hpi, abs_of_pos (show (0 : ℝ) < 180 by norm_num)]
  rw [← hxe] at hx hx'
  refine finish hb hab hne h ?_
  unfold inverseWarns at w
  rw [if_neg (by rintro ⟨h, h'⟩; exact hne.elim (fun w => w (h.trans h')) (fun w => w h'))] at w
  generalize canonical x1 y1 x2 y2 = c at *
  intro t ht'
  have e1 : ∀ y : ℝ, y * Real.pi / 180 = rad y := fun y => by unfold rad; ring
  have x0 : ¬ 0 = c.x2 := by
    intro h0
    rw [← h0] at hx
    have : rad 0 = 0 := by unfold rad; simp
    rw [this] at hx
    linarith
  have x1' : ¬ |pyModR (rad c.x2) (2 * Real.pi) - Real.pi| < 1 / 10 ^ 12 := by
    rw [mod_small (by linarith) (by linarith), abs_sub_comm, abs_of_nonneg (by linarith [show (0 : ℝ) < 1 / 10 ^ 12 by norm_num])]
    intro h0
    linarith
  unfold triangle at ht'
  dsimp only at w ht'
  simp only [sub_zero, e1, f1, if_neg x0, if_neg x1'] at w ht'
  by_cases hg : 87 / 10000 < |rad c.x2 - Real.pi| ∧ 87 / 10000 < |rad c.y1 + rad c.y2|
  · simp only [if_pos hg, bind, Except.bind] at ht' w
    exact core hb hab hn r1 r4 r2 r3 hx (settled hb hab 100 _ ht' w)
  · simp only [if_neg hg] at ht' w
    cases hz : solveAstroid root a ((a - b) / a) (rad c.x2) (rad c.y1) (rad c.y2) with
    | error e => rw [hz] at ht'; cases ht'
    | ok z =>
      rw [hz] at ht' w
      exact core hb hab hn r1 r4 r2 r3 hx (settled hb hab 100 z ht' w)

/-- C177.  Between two positions on one meridian the inverse problem gives the length of the meridian, up to an error of the seventh order in `n`. -/
theorem C177_meridian (root : ℝ → ℝ → (ℝ → ℝ) → ℝ → Except Err ℝ) {a b x1 y1 x2 y2 tol az baz s : ℝ} (hb : 0 < b) (hab : b < a)
    (hn : (a - b) / (a + b) ≤ 1 / 10) (hy1 : -90 < y1) (hy1' : y1 < 90) (hy2 : -90 < y2) (hy2' : y2 < 90) (hne : y1 ≠ 0 ∨ y2 ≠ 0)
    (hx : reduceDeg (x2 - x1) = 0) (h : ellipsoidalInverse root a b x1 y1 x2 y2 tol = .ok (az, baz, s)) :
    Connects a b (rad y1) (rad y2) 0 (rad az) (rad baz + Real.pi) s (76 * ((a - b) / (a + b)) ^ 7 * b) 0 := by
  have hpi := Real.pi_pos
  obtain ⟨f1, f2, -⟩ := forms hb hab
  obtain ⟨r1, r2, r3, r4⟩ := canonical_range (x1 := x1) (x2 := x2) hy1 hy1' hy2 hy2' hne
  obtain ⟨-, -, -, k4, -, k6, -, -⟩ := canonical_ok x1 y1 x2 y2
  rw [hx, abs_zero] at k6
  have rad0 : rad 0 = 0 := by unfold rad; simp
  have := finish (E := 76 * ((a - b) / (a + b)) ^ 7 * b) (F := 0) hb hab hne h ?_
  · rwa [hx, rad0] at this
  generalize canonical x1 y1 x2 y2 = c at *
  intro t ht'
  have e1 : ∀ y : ℝ, y * Real.pi / 180 = rad y := fun y => by unfold rad; ring
  unfold triangle at ht'
  dsimp only at ht'
  simp only [sub_zero, e1, f1, if_pos k6.symm] at ht'
  have M := meridian hb hab hn r1 r4 r3
  obtain ⟨b1, hb1⟩ : ∃ x, x = Real.arctan (b / a * Real.tan (rad c.y1)) := ⟨_, rfl⟩
  obtain ⟨b2, hb2⟩ : ∃ x, x = Real.arctan (b / a * Real.tan (rad c.y2)) := ⟨_, rfl⟩
  have c2 : 0 < Real.cos b2 := by rw [hb2]; exact Real.cos_arctan_pos _
  rw [← hb1, ← hb2] at ht' M
  have sig : ∀ x : ℝ, -(Real.pi / 2) < x → x < Real.pi / 2 → neaSigma 0 x = x := by
    intro x k1 k2
    unfold neaSigma
    rw [Real.cos_zero, one_mul]
    have := atan2_polar (r := 1) zero_lt_one (θ := x) (by linarith) (by linarith)
    rwa [one_mul, one_mul] at this
  have s1 : neaSigma 0 b1 = b1 := by rw [hb1]; exact sig _ (Real.neg_pi_div_two_lt_arctan _) (Real.arctan_lt_pi_div_two _)
  have s2 : neaSigma 0 b2 = b2 := by rw [hb2]; exact sig _ (Real.neg_pi_div_two_lt_arctan _) (Real.arctan_lt_pi_div_two _)
  have z0 : alphaZero 0 b1 = 0 := by
    unfold alphaZero
    have := atan2_polar (r := 1) zero_lt_one (θ := 0) (by linarith) (by linarith)
    simpa using this
  rw [neb_ok (a2 := 0) c2 (by simp) le_rfl hpi.le (by simp)] at ht'
  simp only [bind, Except.bind, s1, s2, z0, Except.ok.injEq] at ht'
  rw [← ht', k6, rad0]
  exact M

/-- C177.  On the ellipsoid of WGS84 the distance is right to a tenth of a nanometre, for the geodesic that meets the longitude to the tolerance and
`10 ^ (-16)` radians. -/
theorem C177_earth (root : ℝ → ℝ → (ℝ → ℝ) → ℝ → Except Err ℝ) {x1 y1 x2 y2 tol az baz s : ℝ} (ht : 0 ≤ tol) (hy1 : -90 < y1) (hy1' : y1 < 90)
    (hy2 : -90 < y2) (hy2' : y2 < 90) (hne : y1 ≠ 0 ∨ y2 ≠ 0) (hx : tol + 1 / 10 ^ 16 < |rad (reduceDeg (x2 - x1))|)
    (hx' : |rad (reduceDeg (x2 - x1))| ≤ Real.pi - 1 / 10 ^ 12) (h : ellipsoidalInverse root 6378137 6356752.314245 x1 y1 x2 y2 tol = .ok (az, baz, s))
    (w : inverseWarns root 6378137 6356752.314245 x1 y1 x2 y2 tol = .ok false) :
    Connects 6378137 6356752.314245 (rad y1) (rad y2) (rad (reduceDeg (x2 - x1))) (rad az) (rad baz + Real.pi) s (1 / 10 ^ 10) (tol + 1 / 10 ^ 16) := by
  have e1 : 330 * (((6378137 : ℝ) - 6356752.314245) / (6378137 + 6356752.314245)) ^ 7 ≤ 1 / 10 ^ 16 := by norm_num
  have e2 : 76 * (((6378137 : ℝ) - 6356752.314245) / (6378137 + 6356752.314245)) ^ 7 * 6356752.314245 ≤ 1 / 10 ^ 10 := by norm_num
  obtain ⟨alpha0, s1, s2, i, j, k1, k2, k3, k4, k5, k6, k7⟩ := C177_inverse root (by norm_num) (by norm_num) (by norm_num) ht hy1 hy1' hy2 hy2' hne
    (lt_of_le_of_lt (by linarith only [e1]) hx) hx' h w
  exact ⟨alpha0, s1, s2, i, j, k1, k2, k3, k4, k5, k6.trans e2, k7.trans (by linarith only [e1])⟩

/-! ### Opposite meridians -/

/-- The branch for opposite meridians. -/
theorem triangle_opposite (root : ℝ → ℝ → (ℝ → ℝ) → ℝ → Except Err ℝ) {a b tol : ℝ} (hb : 0 < b) (hab : b < a) {c : Canon} (hx : c.x2 = 180)
    (h1 : -(Real.pi / 2) < rad c.y1) (h2 : rad c.y1 < 0) (h3 : c.y1 + c.y2 ≤ 0) :
    triangle root a b tol c = .ok ⟨Real.pi, Real.pi, 0, -Real.pi - Real.arctan (b / a * Real.tan (rad c.y1)), Real.arctan (b / a * Real.tan (rad c.y2))⟩ := by
  have ha : 0 < a := hb.trans hab
  have hpi := Real.pi_pos
  obtain ⟨f1, -, -⟩ := forms hb hab
  have e1 : ∀ y : ℝ, y * Real.pi / 180 = rad y := fun y => by unfold rad; ring
  have x0 : ¬ 0 = c.x2 := by rw [hx]; norm_num
  have r180 : rad c.x2 = Real.pi := by rw [hx]; unfold rad; field_simp
  have x1 : |pyModR (rad c.x2) (2 * Real.pi) - Real.pi| < 1 / 10 ^ 12 := by
    rw [r180, mod_small hpi.le (by linarith)]
    simp
  have y0 : ¬ 0 < c.y1 + c.y2 := not_lt.2 h3
  unfold triangle
  dsimp only
  simp only [sub_zero, e1, f1, if_neg x0, if_pos x1, if_neg y0]
  obtain ⟨b1, hb1⟩ : ∃ x, x = Real.arctan (b / a * Real.tan (rad c.y1)) := ⟨_, rfl⟩
  obtain ⟨b2, hb2⟩ : ∃ x, x = Real.arctan (b / a * Real.tan (rad c.y2)) := ⟨_, rfl⟩
  rw [← hb1, ← hb2]
  have c2 : 0 < Real.cos b2 := by rw [hb2]; exact Real.cos_arctan_pos _
  have b1r : -(Real.pi / 2) < b1 := by rw [hb1]; exact Real.neg_pi_div_two_lt_arctan _
  have b2l : -(Real.pi / 2) < b2 := by rw [hb2]; exact Real.neg_pi_div_two_lt_arctan _
  have b2u : b2 < Real.pi / 2 := by rw [hb2]; exact Real.arctan_lt_pi_div_two _
  have b1n : b1 < 0 := by
    rw [hb1, Real.arctan_lt_zero]
    exact mul_neg_of_pos_of_neg (div_pos hb ha) (Real.tan_neg_of_neg_of_pi_div_two_lt h2 h1)
  have s1 : neaSigma Real.pi b1 = -Real.pi - b1 := by
    unfold neaSigma
    have := atan2_polar_unit (t := -Real.pi - b1) (by linarith) (by linarith)
    rw [show -Real.pi - b1 = -(b1 + Real.pi) by ring, Real.sin_neg, Real.cos_neg, Real.sin_add_pi, Real.cos_add_pi, neg_neg] at this
    rw [Real.cos_pi, neg_one_mul, this]
    ring
  have s2 : neaSigma 0 b2 = b2 := by
    unfold neaSigma
    rw [Real.cos_zero, one_mul]
    exact atan2_polar_unit (by linarith) (by linarith)
  rw [neb_ok (a2 := 0) c2 (by simp) le_rfl hpi.le (by simp)]
  simp only [bind, Except.bind, s1, s2]

theorem opposite (hb : 0 < b) (hab : b < a) (hn : (a - b) / (a + b) ≤ 1 / 10) {p1 p2 : ℝ} (h1 : -(Real.pi / 2) < p1) (h1' : p1 < 0) (h2 : p2 < Real.pi / 2)
    (h12 : p1 ≤ p2) : Links a b p1 p2 Real.pi Real.pi 0 (b * (codeArc (eps a b 0) (Real.arctan (b / a * Real.tan p2)) -
      codeArc (eps a b 0) (-Real.pi - Real.arctan (b / a * Real.tan p1)))) (76 * ((a - b) / (a + b)) ^ 7 * b) Real.pi := by
  have ha : 0 < a := hb.trans hab
  have hpi := Real.pi_pos
  have hpi4 := Real.pi_lt_d4
  have lat : ∀ p s : ℝ, -(Real.pi / 2) < p → p < Real.pi / 2 → Real.sin s = Real.sin (Real.arctan (b / a * Real.tan p)) → latitude a b 0 s = p := by
    intro p s k1 k2 hs
    unfold latitude reduced
    rw [Real.cos_zero, one_mul, hs, Real.arcsin_sin (Real.neg_pi_div_two_lt_arctan _).le (Real.arctan_lt_pi_div_two _).le, Real.tan_arctan,
      show a / b * (b / a * Real.tan p) = Real.tan p by field_simp, Real.arctan_tan k1 k2]
  have lon : ∀ s1 s2 : ℝ, pathLongitude a b 0 s1 s2 = 0 := by
    intro s1 s2
    unfold pathLongitude lonRate
    simp
  have nn : 0 ≤ ((a - b) / (a + b)) ^ 7 := pow_nonneg (div_nonneg (by linarith) (by linarith)) 7
  obtain ⟨b1, hb1⟩ : ∃ x, x = Real.arctan (b / a * Real.tan p1) := ⟨_, rfl⟩
  obtain ⟨b2, hb2⟩ : ∃ x, x = Real.arctan (b / a * Real.tan p2) := ⟨_, rfl⟩
  have b1r : -(Real.pi / 2) < b1 := by rw [hb1]; exact Real.neg_pi_div_two_lt_arctan _
  have b2l : -(Real.pi / 2) < b2 := by rw [hb2]; exact Real.neg_pi_div_two_lt_arctan _
  have b2r : b2 < Real.pi / 2 := by rw [hb2]; exact Real.arctan_lt_pi_div_two _
  have c1 : 0 < Real.cos b1 := by rw [hb1]; exact Real.cos_arctan_pos _
  have c2 : 0 < Real.cos b2 := by rw [hb2]; exact Real.cos_arctan_pos _
  have sn : Real.sin (-Real.pi - b1) = Real.sin b1 := by
    rw [show -Real.pi - b1 = -(b1 + Real.pi) by ring, Real.sin_neg, Real.sin_add_pi, neg_neg]
  have cn : Real.cos (-Real.pi - b1) = -Real.cos b1 := by
    rw [show -Real.pi - b1 = -(b1 + Real.pi) by ring, Real.cos_neg, Real.cos_add_pi]
  have b1n : b1 < 0 := by
    rw [hb1, Real.arctan_lt_zero]
    exact mul_neg_of_pos_of_neg (div_pos hb ha) (Real.tan_neg_of_neg_of_pi_div_two_lt h1' h1)
  rw [← hb1, ← hb2]
  refine ⟨0, -Real.pi - b1, b2, Real.cos b1, Real.cos b2, by linarith, c1, c2, lat p1 _ h1 (by linarith) (by rw [sn, hb1]),
    lat p2 _ (by linarith) h2 (by rw [hb2]), by rw [Real.cos_pi, cn]; simp, by simp, by simp, by simp, ?_, by rw [lon, zero_sub, abs_neg, abs_of_pos hpi]⟩
  have D : |b2 - (-Real.pi - b1)| ≤ 471 / 100 + 1 / 400 := by rw [abs_of_nonneg (by linarith)]; norm_num at hpi4 ⊢; linarith
  exact (arc_error hb hab hn D).trans (mul_le_mul_of_nonneg_right (mul_le_mul_of_nonneg_right (by norm_num) nn) hb.le)

theorem mod_deg {x : ℝ} (k : ℤ) (h0 : 0 ≤ x - 360 * k) (h1 : x - 360 * k < 360) : pyModR x 360 = x - 360 * k := by
  unfold pyModR
  have : ⌊x / 360⌋ = k := by
    rw [Int.floor_eq_iff]
    constructor
    · rw [le_div_iff₀ (by norm_num)]; linarith
    · rw [div_lt_iff₀ (by norm_num)]; linarith
  rw [this]

/-- C177.  Between positions on opposite meridians the inverse problem always answers: the way leads over the pole of the hemisphere that the mean of the
latitudes is in.  Both azimuths are those of that pole, and the distance is the length of the way, up to an error of the seventh order in `n`.  (The
longitude jumps at the pole, so the last number says nothing.) -/
theorem C177_opposite (root : ℝ → ℝ → (ℝ → ℝ) → ℝ → Except Err ℝ) {a b x1 y1 x2 y2 : ℝ} (tol : ℝ) (hb : 0 < b) (hab : b < a)
    (hn : (a - b) / (a + b) ≤ 1 / 10) (hy1 : -90 < y1) (hy1' : y1 < 90) (hy2 : -90 < y2) (hy2' : y2 < 90) (hne : y1 ≠ 0 ∨ y2 ≠ 0)
    (hx : reduceDeg (x2 - x1) = -180) : ∃ az s, ellipsoidalInverse root a b x1 y1 x2 y2 tol = .ok (az, az, s) ∧ (az = 0 ∨ az = -180) ∧
      (y1 + y2 < 0 → az = -180) ∧ (0 < y1 + y2 → az = 0) ∧
      Connects a b (rad y1) (rad y2) (-Real.pi) (rad az) (rad az + Real.pi) s (76 * ((a - b) / (a + b)) ^ 7 * b) Real.pi := by
  have hpi := Real.pi_pos
  obtain ⟨f1, f2, -⟩ := forms hb hab
  obtain ⟨r1, r2, r3, r4⟩ := canonical_range (x1 := x1) (x2 := x2) hy1 hy1' hy2 hy2' hne
  obtain ⟨k1, k2, k3, k4, -, k6, -, -⟩ := canonical_ok x1 y1 x2 y2
  rw [hx, abs_neg, abs_of_pos (show (0 : ℝ) < 180 by norm_num)] at k6
  have T := triangle_opposite root (tol := tol) hb hab k6 r1 r2 (by linarith)
  have xf : (canonical x1 y1 x2 y2).xflip = true := by
    show decide (reduceDeg (x2 - x1) < 0 ∨ 180 < reduceDeg (x2 - x1)) = true
    rw [hx]; simp
  have yf : (canonical x1 y1 x2 y2).yflip = decide (|y1| < |y2|) := rfl
  have ys : (canonical x1 y1 x2 y2).ysignswap = decide (0 < (if |y1| < |y2| then y2 else y1)) := rfl
  have L : ∀ az baz s, ellipsoidalInverse root a b x1 y1 x2 y2 tol = .ok (az, baz, s) →
      Connects a b (rad y1) (rad y2) (-Real.pi) (rad az) (rad baz + Real.pi) s (76 * ((a - b) / (a + b)) ^ 7 * b) Real.pi := by
    intro az baz s h
    have := finish (E := 76 * ((a - b) / (a + b)) ^ 7 * b) (F := Real.pi) hb hab hne h ?_
    · rw [hx] at this
      rwa [show rad (-180) = -Real.pi by unfold rad; field_simp] at this
    · intro t ht
      rw [T] at ht
      cases ht
      dsimp only
      rw [k6, show rad 180 = Real.pi by unfold rad; field_simp, show eps a b Real.pi = eps a b 0 by unfold eps; simp]
      exact opposite hb hab hn r1 r2 r4 r3
  have E : ∃ p : ℝ × ℝ, undo (canonical x1 y1 x2 y2) Real.pi 0 = p ∧ ∃ s, ellipsoidalInverse root a b x1 y1 x2 y2 tol =
      .ok (pyModR (p.1 * 180 / Real.pi + 180) 360 - 180, pyModR ((p.2 + Real.pi) * 180 / Real.pi + 180) 360 - 180, s) := by
    refine ⟨_, rfl, ?_⟩
    unfold ellipsoidalInverse
    rw [if_neg (by rintro ⟨h, h'⟩; exact hne.elim (fun w => w (h.trans h')) (fun w => w h'))]
    dsimp only
    rw [T]
    exact ⟨_, rfl⟩
  obtain ⟨p, hp, s, hs⟩ := E
  have val : ∀ m k : ℤ, ∀ x : ℝ, x = m * Real.pi → 0 ≤ (m : ℝ) * 180 + 180 - 360 * k → (m : ℝ) * 180 + 180 - 360 * k < 360 →
      pyModR (x * 180 / Real.pi + 180) 360 - 180 = m * 180 - 360 * k := by
    intro m k x hxm h0 h1
    have : x * 180 / Real.pi + 180 = m * 180 + 180 := by rw [hxm]; field_simp
    rw [this, mod_deg k h0 h1]
    ring
  have hp' : p = if decide (0 < (if |y1| < |y2| then y2 else y1)) then
      (Real.pi - (if decide (|y1| < |y2|) then (Real.pi - -0, Real.pi - -Real.pi) else (-Real.pi, -0) : ℝ × ℝ).1,
        Real.pi - (if decide (|y1| < |y2|) then (Real.pi - -0, Real.pi - -Real.pi) else (-Real.pi, -0) : ℝ × ℝ).2)
      else (if decide (|y1| < |y2|) then (Real.pi - -0, Real.pi - -Real.pi) else (-Real.pi, -0) : ℝ × ℝ) := by
    rw [← hp]
    unfold undo
    rw [xf, yf, ys, if_pos rfl]
  by_cases hf : |y1| < |y2|
  · simp only [hf, decide_true, if_true, neg_zero, sub_zero, sub_neg_eq_add] at hp'
    by_cases hg : 0 < y2
    · rw [if_pos (decide_eq_true hg)] at hp'
      have e1 := val 0 0 p.1 (by rw [hp']; simp) (by norm_num) (by norm_num)
      have e2 := val 0 0 (p.2 + Real.pi) (by rw [hp']; push_cast; ring) (by norm_num) (by norm_num)
      rw [e1, e2] at hs
      norm_num at hs
      rw [abs_of_pos hg, abs_lt] at hf
      exact ⟨0, s, hs, Or.inl rfl, fun h => by linarith, fun _ => rfl, L _ _ _ hs⟩
    · rw [if_neg (by simpa using hg)] at hp'
      have e1 := val 1 1 p.1 (by rw [hp']; simp) (by norm_num) (by norm_num)
      have e2 := val 3 2 (p.2 + Real.pi) (by rw [hp']; push_cast; ring) (by norm_num) (by norm_num)
      rw [e1, e2] at hs
      norm_num at hs
      rw [abs_of_nonpos (not_lt.1 hg), abs_lt] at hf
      exact ⟨-180, s, hs, Or.inr rfl, fun _ => rfl, fun h => by linarith, L _ _ _ hs⟩
  · simp only [hf, decide_false, if_false, neg_zero, sub_zero, sub_neg_eq_add, Bool.false_eq_true] at hp'
    have hf' := not_lt.1 hf
    by_cases hg : 0 < y1
    · rw [if_pos (decide_eq_true hg)] at hp'
      have e1 := val 2 1 p.1 (by rw [hp']; push_cast; ring) (by norm_num) (by norm_num)
      have e2 := val 2 1 (p.2 + Real.pi) (by rw [hp']; push_cast; ring) (by norm_num) (by norm_num)
      rw [e1, e2] at hs
      norm_num at hs
      rw [abs_of_pos hg, abs_le] at hf'
      exact ⟨0, s, hs, Or.inl rfl, fun h => by linarith, fun _ => rfl, L _ _ _ hs⟩
    · rw [if_neg (by simpa using hg)] at hp'
      have e1 := val (-1) 0 p.1 (by rw [hp']; push_cast; ring) (by norm_num) (by norm_num)
      have e2 := val 1 1 (p.2 + Real.pi) (by rw [hp']; push_cast; ring) (by norm_num) (by norm_num)
      rw [e1, e2] at hs
      norm_num at hs
      rw [abs_of_nonpos (not_lt.1 hg), abs_le] at hf'
      exact ⟨-180, s, hs, Or.inr rfl, fun _ => rfl, fun h => by linarith, L _ _ _ hs⟩

/-- Positions on opposite meridians of the ellipsoid of WGS84. -/
example : reduceDeg ((190 : ℝ) - 10) = -180 := by
  unfold reduceDeg
  norm_num [pyModR]

/-! ### The first guess -/

theorem lonRate_bounds (hb : 0 < b) (hab : b < a) (h0 : 0 < Real.sin alpha0) (s : ℝ) :
    b / a * (Real.sin alpha0 / (1 - (Real.cos alpha0 * Real.sin s) ^ 2)) ≤ lonRate a b alpha0 s ∧
      lonRate a b alpha0 s ≤ Real.sin alpha0 / (1 - (Real.cos alpha0 * Real.sin s) ^ 2) := by
  have ha : 0 < a := hb.trans hab
  have e : Real.cos (reduced alpha0 s) ^ 2 = 1 - (Real.cos alpha0 * Real.sin s) ^ 2 := by
    unfold reduced
    rw [Real.cos_arcsin, Real.sq_sqrt (small h0.ne' s).le]
  have p := small h0.ne' s
  unfold lonRate
  rw [e]
  generalize 1 - (Real.cos alpha0 * Real.sin s) ^ 2 = c at *
  have c1 : c ≤ 1 := by
    rw [← e]; exact Real.cos_sq_le_one _
  have q : 0 < Real.sin alpha0 / c := div_pos h0 p
  have k : 0 ≤ (a ^ 2 - b ^ 2) / a ^ 2 := div_nonneg (by nlinarith) (by positivity)
  have k1 : (b / a) ^ 2 = 1 - (a ^ 2 - b ^ 2) / a ^ 2 := by field_simp; ring
  have u : Real.sqrt (1 - (a ^ 2 - b ^ 2) / a ^ 2 * c) ≤ 1 := by
    apply Real.sqrt_le_one.2; nlinarith
  have l : b / a ≤ Real.sqrt (1 - (a ^ 2 - b ^ 2) / a ^ 2 * c) := by
    apply Real.le_sqrt_of_sq_le
    rw [k1]; nlinarith
  constructor
  · rw [mul_comm]; exact mul_le_mul_of_nonneg_left l q.le
  · calc _ ≤ Real.sin alpha0 / c * 1 := mul_le_mul_of_nonneg_left u q.le
      _ = _ := mul_one _

theorem lon_bounds (hb : 0 < b) (hab : b < a) (h0 : 0 < Real.sin alpha0) {s1 s2 : ℝ} (h : s1 ≤ s2) :
    b / a * turn alpha0 s1 s2 ≤ pathLongitude a b alpha0 s1 s2 ∧ pathLongitude a b alpha0 s1 s2 ≤ turn alpha0 s1 s2 := by
  have i1 := (turn_cont h0.ne').intervalIntegrable (μ := MeasureTheory.volume) s1 s2
  have i2 := (lonRate_continuous hb hab h0.ne').intervalIntegrable (μ := MeasureTheory.volume) s1 s2
  unfold turn pathLongitude
  constructor
  · rw [← intervalIntegral.integral_const_mul]
    exact intervalIntegral.integral_mono_on h (i1.const_mul _) i2 fun t _ => (lonRate_bounds hb hab h0 t).1
  · exact intervalIntegral.integral_mono_on h i2 i1 fun t _ => (lonRate_bounds hb hab h0 t).2

set_option maxHeartbeats 400000 in
/-- The loop ends in its first round when the tolerance is coarse. -/
theorem first_round (hb : 0 < b) (hab : b < a) (hn : (a - b) / (a + b) ≤ 1 / 10) {p1 p2 lam tol : ℝ} (h1 : -(Real.pi / 2) < p1) (hneg : p1 < 0)
    (h12 : p1 ≤ p2) (h21 : p2 ≤ -p1) (l0 : 0 < lam) (l1 : lam * (a / b) < Real.pi) (ht : Real.pi * ((a - b) / b) + 330 * ((a - b) / (a + b)) ^ 7 ≤ tol) (n : Nat) :
    (∃ t, newton a b lam (Real.arctan (b / a * Real.tan p1)) (Real.arctan (b / a * Real.tan p2)) tol (n + 1)
      (solveVincenty a ((a - b) / a) lam p1 p2).1 = .ok t) ∧
    newtonWarns a b lam (Real.arctan (b / a * Real.tan p1)) (Real.arctan (b / a * Real.tan p2)) tol (n + 1)
      (solveVincenty a ((a - b) / a) lam p1 p2).1 = .ok (decide (n = 0)) := by
  have ha : 0 < a := hb.trans hab
  have hpi := Real.pi_pos
  have hpi4 := Real.pi_lt_d4
  have h2 : p2 < Real.pi / 2 := by linarith
  obtain ⟨f1, f2, f3⟩ := forms hb hab
  obtain ⟨b1, hb1⟩ : ∃ x, x = Real.arctan (b / a * Real.tan p1) := ⟨_, rfl⟩
  obtain ⟨b2, hb2⟩ : ∃ x, x = Real.arctan (b / a * Real.tan p2) := ⟨_, rfl⟩
  have hb12 : b1 ≤ b2 := by rw [hb1, hb2]; exact reduced_mono hb hab h1 h2 h12
  have hb21 : b2 ≤ -b1 := by
    rw [hb1, hb2, ← Real.arctan_neg, ← mul_neg, ← Real.tan_neg]
    exact reduced_mono hb hab (by linarith) (by linarith) h21
  have b1n : b1 < 0 := by
    rw [hb1, Real.arctan_lt_zero]
    exact mul_neg_of_pos_of_neg (by positivity) (Real.tan_neg_of_neg_of_pi_div_two_lt hneg h1)
  have b1r : -(Real.pi / 2) < b1 := by rw [hb1]; exact Real.neg_pi_div_two_lt_arctan _
  have b2r : b2 < Real.pi / 2 := by rw [hb2]; exact Real.arctan_lt_pi_div_two _
  have c1 : 0 < Real.cos b1 := by rw [hb1]; exact Real.cos_arctan_pos _
  have c2 : 0 < Real.cos b2 := by rw [hb2]; exact Real.cos_arctan_pos _
  -- the guess is exact for another longitude
  obtain ⟨w, hw⟩ : ∃ x, x = Real.sqrt (1 - (a - b) / a * (2 - (a - b) / a) * (1 / 2 * (Real.cos b1 + Real.cos b2)) ^ 2) := ⟨_, rfl⟩
  have m0 : 0 < 1 / 2 * (Real.cos b1 + Real.cos b2) := by linarith
  have m1 : 1 / 2 * (Real.cos b1 + Real.cos b2) ≤ 1 := by linarith [Real.cos_le_one b1, Real.cos_le_one b2]
  have e2 : (a - b) / a * (2 - (a - b) / a) = 1 - (b / a) ^ 2 := by field_simp; ring
  have ba : b / a < 1 := by rw [div_lt_one ha]; exact hab
  have ba0 : 0 < b / a := by positivity
  have w0 : b / a ≤ w := by
    rw [hw, e2]
    exact Real.le_sqrt_of_sq_le (quad_ge ba0.le ba.le m0.le m1).1
  have w1 : w ≤ 1 := by
    rw [hw, e2]
    exact Real.sqrt_le_one.2 (quad_ge ba0.le ba.le m0.le m1).2
  have wp : 0 < w := ba0.trans_le w0
  obtain ⟨om, hom⟩ : ∃ x, x = lam / w := ⟨_, rfl⟩
  have om1 : lam ≤ om := by rw [hom, le_div_iff₀ wp]; exact mul_le_of_le_one_right l0.le w1
  have om2 : om ≤ lam * (a / b) := by
    rw [hom, div_le_iff₀ wp]
    calc lam = lam * (a / b) * (b / a) := by field_simp
      _ ≤ _ := mul_le_mul_of_nonneg_left w0 (by positivity)
  have V : (solveVincenty a ((a - b) / a) lam p1 p2).1 = (solveVincenty 1 0 om b1 b2).1 := by
    rw [vincenty_sphere 1 om b1 b2 b1r (by linarith) (by linarith) b2r]
    unfold solveVincenty
    dsimp only
    rw [f1, ← hb1, ← hb2, ← hw, ← hom]
  obtain ⟨z2, sg, J, sa1, z2p, z2m, ca2, hsin⟩ := vincenty_canonical 1 om b1 b2 zero_lt_one (by linarith) (by linarith) b1r b1n hb12 hb21
  rw [← V] at J sa1 hsin
  obtain ⟨z1, hz1⟩ : ∃ x, x = (solveVincenty a ((a - b) / a) lam p1 p2).1 := ⟨_, rfl⟩
  rw [← hz1] at J sa1 hsin
  rw [← hb1, ← hb2, ← hz1]
  obtain ⟨d1, d2⟩ := node_differences (by linarith) (by linarith) b1r b1n hb12 hb21 J sa1 ca2 hsin
  have hneb := neb_ok (a0 := alphaZero z1 b1) (a1 := z1) (b1 := b1) c2 ca2 z2p z2m (by
    have t1 := Real.sin_sq_add_cos_sq z1
    have t2 := Real.sin_sq_add_cos_sq z2
    have t3 : (Real.sin z1 * Real.cos b1) ^ 2 = (Real.sin z2 * Real.cos b2) ^ 2 := by rw [hsin]
    linear_combination Real.cos b1 ^ 2 * t1 - Real.cos b2 ^ 2 * t2 - t3)
  have N1 := node_ok b1 z1 c1.le
  have N2 := node_ok b2 z2 c2.le
  rw [alphaZero_congr hsin.symm] at N2
  have s0 : 0 < Real.sin (alphaZero z1 b1) := by rw [N1.s0]; exact mul_pos sa1 c1
  have sb1 : Real.sin b1 < 0 := Real.sin_neg_of_neg_of_neg_pi_lt b1n (by linarith)
  have r1m : -Real.pi < neaSigma z1 b1 ∧ neaSigma z1 b1 < 0 := ⟨(atan2_mem _ _).1, atan2_below sb1⟩
  have r2m : -(Real.pi / 2) ≤ neaSigma z2 b2 ∧ neaSigma z2 b2 ≤ Real.pi / 2 := atan2_right (mul_nonneg ca2 c2.le)
  have j0 := J.nonneg
  have j1 := J.half
  have T := turn_exact s0.ne' (by linarith) r1m.1 r1m.2 r2m.1 r2m.2 c1 c2 (by rw [N1.z]; linarith [Real.sin_sq_add_cos_sq b1])
    (by rw [N2.z]; linarith [Real.sin_sq_add_cos_sq b2]) N1.cw N1.sw N2.cw N2.sw (atan2_mem _ _).1.le (atan2_mem _ _).2 (atan2_mem _ _).1.le (atan2_mem _ _).2
  have B := lon_bounds hb hab s0 (show neaSigma z1 b1 ≤ neaSigma z2 b2 by linarith)
  have L := lon_close hb hab hn s0.ne' (neaSigma z1 b1) (neaSigma z2 b2)
  rw [T, d2] at B
  rw [T] at L
  rw [d2, d1, abs_of_nonneg j0] at L
  have nn : 0 ≤ ((a - b) / (a + b)) ^ 7 := pow_nonneg (div_nonneg (by linarith) (by linarith)) 7
  have L2 : 70 * ((a - b) / (a + b)) ^ 7 * sg ≤ 330 * ((a - b) / (a + b)) ^ 7 := by
    refine scale_le nn ?_
    norm_num at hpi4 ⊢
    linarith only [hpi4, j1]
  have L3 := abs_le.1 (L.trans L2)
  have q1 : lam * (a / b) - lam ≤ Real.pi * ((a - b) / b) := by
    have e : lam * (a / b) - lam = lam * ((a - b) / b) := by field_simp
    rw [e]
    refine mul_le_mul_of_nonneg_right ?_ (div_nonneg (by linarith) hb.le)
    have : 1 ≤ a / b := by rw [le_div_iff₀ hb]; linarith only [hab]
    exact (le_mul_of_one_le_right l0.le this).trans l1.le
  have q2 : lam - b / a * om ≤ Real.pi * ((a - b) / b) := by
    have e : b / a * lam ≤ b / a * om := mul_le_mul_of_nonneg_left om1 ba0.le
    have e' : lam - b / a * lam ≤ lam * (a / b) - lam := by
      have : lam * (a / b) - lam - (lam - b / a * lam) = lam * ((a - b) ^ 2 / (a * b)) := by field_simp
      have : 0 ≤ lam * ((a - b) ^ 2 / (a * b)) := by positivity
      linarith
    linarith
  have key : |lambdaError ((a - b) / a) lam (epsOf ((a ^ 2 - b ^ 2) / b ^ 2 * Real.cos (alphaZero z1 b1) ^ 2)) (alphaZero z1 b1) (neaSigma z1 b1)
      (neaOmega (alphaZero z1 b1) (neaSigma z1 b1)) (neaSigma z2 b2) (neaOmega (alphaZero z1 b1) (neaSigma z2 b2))| ≤ tol := by
    have e : lambdaError ((a - b) / a) lam (epsOf ((a ^ 2 - b ^ 2) / b ^ 2 * Real.cos (alphaZero z1 b1) ^ 2)) (alphaZero z1 b1) (neaSigma z1 b1)
      (neaOmega (alphaZero z1 b1) (neaSigma z1 b1)) (neaSigma z2 b2) (neaOmega (alphaZero z1 b1) (neaSigma z2 b2)) =
      om - (a - b) / a * Real.sin (alphaZero z1 b1) * (codeLon ((a - b) / (a + b)) (eps a b (alphaZero z1 b1)) (neaSigma z2 b2)
        - codeLon ((a - b) / (a + b)) (eps a b (alphaZero z1 b1)) (neaSigma z1 b1)) - lam := by
      unfold lambdaError
      dsimp only
      rw [f3, ← d2]
      unfold codeLon eps
      ring
    rw [e, abs_le]
    constructor <;> linarith only [L3.1, L3.2, B.1, B.2, q1, q2, om2, ht]
  constructor
  · refine ⟨⟨alphaZero z1 b1, z1, z2, neaSigma z1 b1, neaSigma z2 b2⟩, ?_⟩
    rw [newton]
    dsimp only
    rw [hneb]
    simp only [bind, Except.bind, f2]
    rw [if_neg (not_lt.2 key)]
  · rw [newtonWarns]
    dsimp only
    rw [hneb]
    simp only [bind, Except.bind, f2]
    rw [if_neg (not_lt.2 key)]

/-- C177.  Unless the positions are nearly opposite, the first guess is so good that the answer comes without a warning whenever the tolerance is at least
about the flattening times `pi`. -/
theorem C177_first (root : ℝ → ℝ → (ℝ → ℝ) → ℝ → Except Err ℝ) {a b x1 y1 x2 y2 tol : ℝ} (hb : 0 < b) (hab : b < a)
    (hn : (a - b) / (a + b) ≤ 1 / 10) (ht : Real.pi * ((a - b) / b) + 330 * ((a - b) / (a + b)) ^ 7 ≤ tol)
    (hy1 : -90 < y1) (hy1' : y1 < 90) (hy2 : -90 < y2) (hy2' : y2 < 90) (hne : y1 ≠ 0 ∨ y2 ≠ 0) (hx0 : reduceDeg (x2 - x1) ≠ 0)
    (hx : |rad (reduceDeg (x2 - x1))| * (a / b) < Real.pi) (hx' : |rad (reduceDeg (x2 - x1))| < Real.pi - 87 / 10000) (hy : 87 / 10000 < |rad (y1 + y2)|) :
    (∃ az baz s, ellipsoidalInverse root a b x1 y1 x2 y2 tol = .ok (az, baz, s)) ∧ inverseWarns root a b x1 y1 x2 y2 tol = .ok false := by
  have hpi := Real.pi_pos
  obtain ⟨f1, f2, -⟩ := forms hb hab
  obtain ⟨r1, r2, r3, r4⟩ := canonical_range (x1 := x1) (x2 := x2) hy1 hy1' hy2 hy2' hne
  obtain ⟨-, -, k3, k4, -, k6, k7, -⟩ := canonical_ok x1 y1 x2 y2
  have hxe : rad (canonical x1 y1 x2 y2).x2 = |rad (reduceDeg (x2 - x1))| := by
    rw [k6]; unfold rad; rw [abs_div, abs_mul, abs_of_pos hpi, abs_of_pos (show (0 : ℝ) < 180 by norm_num)]
  rw [← hxe] at hx hx'
  have x0 : ¬ 0 = (canonical x1 y1 x2 y2).x2 := by rw [k6]; exact fun h => hx0 (abs_eq_zero.1 h.symm)
  have xp : 0 < (canonical x1 y1 x2 y2).x2 := lt_of_le_of_ne k4 x0
  have rp : 0 < rad (canonical x1 y1 x2 y2).x2 := by unfold rad; positivity
  have hs : ∀ u v : ℝ, rad u + rad v = rad (u + v) := fun u v => by unfold rad; ring
  have hy' : 87 / 10000 < |rad (canonical x1 y1 x2 y2).y1 + rad (canonical x1 y1 x2 y2).y2| := by
    rw [hs]
    unfold rad at hy ⊢
    rwa [abs_div, abs_mul, k7, ← abs_mul, ← abs_div]
  have r5 : rad (canonical x1 y1 x2 y2).y2 ≤ -rad (canonical x1 y1 x2 y2).y1 := by
    rw [← rad_neg]; unfold rad
    have := mul_le_mul_of_nonneg_left k3 hpi.le
    linarith
  have e1 : ∀ y : ℝ, y * Real.pi / 180 = rad y := fun y => by unfold rad; ring
  have x1' : ¬ |pyModR (rad (canonical x1 y1 x2 y2).x2) (2 * Real.pi) - Real.pi| < 1 / 10 ^ 12 := by
    rw [mod_small (by linarith) (by linarith), abs_sub_comm, abs_of_nonneg (by linarith)]
    intro h0
    norm_num at h0 hx' ⊢
    linarith
  have G : 87 / 10000 < |rad (canonical x1 y1 x2 y2).x2 - Real.pi| ∧ 87 / 10000 < |rad (canonical x1 y1 x2 y2).y1 + rad (canonical x1 y1 x2 y2).y2| :=
    ⟨by rw [abs_sub_comm, abs_of_nonneg (by linarith)]; linarith, hy'⟩
  obtain ⟨⟨t, F1⟩, F2⟩ := first_round hb hab hn r1 r2 r3 r5 rp hx ht 99
  have nq : ¬ (y1 = y2 ∧ y2 = 0) := by rintro ⟨h, h'⟩; exact hne.elim (fun w => w (h.trans h')) (fun w => w h')
  have F3 : triangle root a b tol (canonical x1 y1 x2 y2) = .ok t := by
    unfold triangle
    dsimp only
    simp only [sub_zero, e1, f1, if_neg x0, if_neg x1', if_pos G, bind, Except.bind]
    exact F1
  constructor
  · unfold ellipsoidalInverse
    rw [if_neg nq]
    dsimp only
    rw [F3]
    exact ⟨_, _, _, rfl⟩
  · unfold inverseWarns
    rw [if_neg nq]
    dsimp only
    simp only [sub_zero, e1, f1, if_neg x0, if_neg x1', if_pos G, bind, Except.bind]
    exact F2

/-- The hypotheses of `C177_inverse` are met: from 30 degrees north, 10 degrees east to 20 degrees south, 100 degrees east, with a coarse tolerance. -/
example (root : ℝ → ℝ → (ℝ → ℝ) → ℝ → Except Err ℝ) : ∃ az baz s, ellipsoidalInverse root 300 299 10 30 100 (-20) (1 / 50) = .ok (az, baz, s) ∧
    Connects 300 299 (rad 30) (rad (-20)) (rad 90) (rad az) (rad baz + Real.pi) s (76 * ((300 - 299 : ℝ) / (300 + 299)) ^ 7 * 299)
      (1 / 50 + 330 * ((300 - 299) / (300 + 299)) ^ 7) := by
  have hpi := Real.pi_pos
  have p3 := Real.pi_gt_three
  have p4 := Real.pi_lt_d4
  norm_num at p4
  have e : reduceDeg (100 - 10) = 90 := by
    unfold reduceDeg
    rw [pyModR_self (by norm_num) (by norm_num)]
    norm_num
  have r : |rad 90| = Real.pi / 2 := by
    have : rad 90 = Real.pi / 2 := by unfold rad; ring
    rw [this, abs_of_pos (by positivity)]
  have r10 : 87 / 10000 < |rad (30 + -20)| := by
    have : rad (30 + -20) = Real.pi / 18 := by unfold rad; ring
    rw [this, abs_of_pos (by positivity)]
    linarith
  obtain ⟨⟨az, baz, s, h⟩, w⟩ := C177_first root (a := 300) (b := 299) (x1 := 10) (y1 := 30) (x2 := 100) (y2 := -20) (tol := 1 / 50) (by norm_num) (by norm_num)
    (by norm_num) (by norm_num; linarith) (by norm_num) (by norm_num) (by norm_num) (by norm_num) (by norm_num) (by rw [e]; norm_num)
    (by rw [e, r]; linarith) (by rw [e, r]; norm_num; linarith) r10
  refine ⟨az, baz, s, h, ?_⟩
  have := C177_inverse root (by norm_num) (by norm_num) (by norm_num) (by norm_num) (by norm_num) (by norm_num) (by norm_num) (by norm_num) (by norm_num)
    (by rw [e, r]; norm_num; linarith) (by rw [e, r]; norm_num; linarith) h w
  rwa [e] at this

end Karta.Geod.InverseSeries
