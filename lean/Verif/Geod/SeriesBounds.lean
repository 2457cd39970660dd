import Verif.Geod.SeriesTerms
import Mathlib.Analysis.Calculus.Deriv.MeanValue

/-!
# The errors of the series of the forward geodesic problem
-/

namespace Karta.Geod.SeriesBounds
open Karta Karta.Geod Karta.Geod.Geodesic Karta.Geod.Poly Karta.Geod.SeriesTerms

/-- Derivative of `sineSumFrom`. -/
noncomputable def cosSumFrom (s : ℝ) : Nat → List ℝ → ℝ
  | _, [] => 0
  | i, c :: r => c * (2 * ((i : ℝ) + 1)) * Real.cos (2 * ((i : ℝ) + 1) * s) + cosSumFrom s (i + 1) r

theorem sineSumFrom_deriv (s : ℝ) : ∀ (l : List ℝ) (i : Nat), HasDerivAt (fun s => sineSumFrom s i l) (cosSumFrom s i l) s
  | [], i => by simpa [sineSumFrom, cosSumFrom] using hasDerivAt_const s (0 : ℝ)
  | c :: r, i => by
    have h1 := (((hasDerivAt_id s).const_mul (2 * ((i : ℝ) + 1))).sin.const_mul c).add (sineSumFrom_deriv s r (i + 1))
    refine h1.congr_deriv ?_
    rw [cosSumFrom]
    simp only [id]
    ring

/-! ### Multiples of an angle -/

theorem cos_step (m t : ℝ) : Real.cos ((m + 1) * t) = 2 * Real.cos t * Real.cos (m * t) - Real.cos ((m - 1) * t) := by
  rw [show (m + 1) * t = m * t + t by ring, show (m - 1) * t = m * t - t by ring, Real.cos_add, Real.cos_sub]; ring
theorem sin_step (m t : ℝ) : Real.sin ((m + 1) * t) = 2 * Real.cos t * Real.sin (m * t) - Real.sin ((m - 1) * t) := by
  rw [show (m + 1) * t = m * t + t by ring, show (m - 1) * t = m * t - t by ring, Real.sin_add, Real.sin_sub]; ring

section
variable (n e t : ℝ)
theorem cos2 : Real.cos (2 * t) = t2.eval n e (Real.cos t) := by
  rw [Real.cos_two_mul]; simp only [t2, eval_sub, eval_mul, eval_const, eval_pow, eval_x]; push_cast; ring
theorem cos3 : Real.cos (3 * t) = t3.eval n e (Real.cos t) := by
  rw [Real.cos_three_mul]; simp only [t3, eval_sub, eval_mul, eval_const, eval_pow, eval_x]; push_cast; ring
theorem cos4 : Real.cos (4 * t) = t4.eval n e (Real.cos t) := by
  have := cos_step 3 t
  rw [show (3 : ℝ) + 1 = 4 by norm_num, show (3 : ℝ) - 1 = 2 by norm_num] at this
  rw [this, cos2 n e, cos3 n e]; simp only [t4, t3, t2, eval_sub, eval_add, eval_mul, eval_const, eval_pow, eval_x]; push_cast; ring
theorem cos5 : Real.cos (5 * t) = t5.eval n e (Real.cos t) := by
  have := cos_step 4 t
  rw [show (4 : ℝ) + 1 = 5 by norm_num, show (4 : ℝ) - 1 = 3 by norm_num] at this
  rw [this, cos3 n e, cos4 n e]; simp only [t5, t4, t3, eval_sub, eval_add, eval_mul, eval_const, eval_pow, eval_x]; push_cast; ring
theorem cos6 : Real.cos (6 * t) = t6.eval n e (Real.cos t) := by
  have := cos_step 5 t
  rw [show (5 : ℝ) + 1 = 6 by norm_num, show (5 : ℝ) - 1 = 4 by norm_num] at this
  rw [this, cos4 n e, cos5 n e]; simp only [t6, t5, t4, eval_sub, eval_add, eval_mul, eval_const, eval_pow, eval_x]; push_cast; ring
theorem sin2 : Real.sin (2 * t) = Real.sin t * u2.eval n e (Real.cos t) := by
  rw [Real.sin_two_mul]; simp only [u2, eval_mul, eval_const, eval_x]; push_cast; ring
theorem sin3 : Real.sin (3 * t) = Real.sin t * u3.eval n e (Real.cos t) := by
  have := sin_step 2 t
  rw [show (2 : ℝ) + 1 = 3 by norm_num, show ((2 : ℝ) - 1) * t = t by ring] at this
  rw [this, sin2 n e]; simp only [u3, u2, eval_sub, eval_mul, eval_const, eval_pow, eval_x]; push_cast; ring
theorem sin4 : Real.sin (4 * t) = Real.sin t * u4.eval n e (Real.cos t) := by
  have := sin_step 3 t
  rw [show (3 : ℝ) + 1 = 4 by norm_num, show (3 : ℝ) - 1 = 2 by norm_num] at this
  rw [this, sin2 n e, sin3 n e]; simp only [u4, u3, u2, eval_sub, eval_mul, eval_const, eval_pow, eval_x]; push_cast; ring
theorem sin5 : Real.sin (5 * t) = Real.sin t * u5.eval n e (Real.cos t) := by
  have := sin_step 4 t
  rw [show (4 : ℝ) + 1 = 5 by norm_num, show (4 : ℝ) - 1 = 3 by norm_num] at this
  rw [this, sin3 n e, sin4 n e]; simp only [u5, u4, u3, eval_sub, eval_add, eval_mul, eval_const, eval_pow, eval_x]; push_cast; ring
theorem sin6 : Real.sin (6 * t) = Real.sin t * u6.eval n e (Real.cos t) := by
  have := sin_step 5 t
  rw [show (5 : ℝ) + 1 = 6 by norm_num, show (5 : ℝ) - 1 = 4 by norm_num] at this
  rw [this, sin4 n e, sin5 n e]; simp only [u6, u5, u4, eval_sub, eval_add, eval_mul, eval_const, eval_pow, eval_x]; push_cast; ring

/-! ### The coefficients of the code -/

variable (x : ℝ)
theorem A1_eval : coefA1 e = 1 / (1 - e) * a1.eval n e x := by
  unfold coefA1; congr 1; simp only [a1, eval_add, eval_mul, eval_const, eval_pow, eval_e]; push_cast; ring
theorem C1_eval : coefC1 e = [p1.eval n e x, p2.eval n e x, p3.eval n e x, p4.eval n e x, p5.eval n e x, p6.eval n e x] := by
  unfold coefC1
  simp only [p1, p2, p3, p4, p5, p6, eval_add, eval_mul, eval_const, eval_pow, eval_e, List.cons.injEq, and_true]
  push_cast
  refine ⟨?_, ?_, ?_, ?_, ?_, ?_⟩ <;> ring
theorem C1p_eval : coefC1p e = [r1.eval n e x, r2.eval n e x, r3.eval n e x, r4.eval n e x, r5.eval n e x, r6.eval n e x] := by
  unfold coefC1p
  simp only [r1, r2, r3, r4, r5, r6, eval_add, eval_mul, eval_const, eval_pow, eval_e, List.cons.injEq, and_true]
  push_cast
  refine ⟨?_, ?_, ?_, ?_, ?_, ?_⟩ <;> ring
theorem A3_eval : coefA3 n e = a3.eval n e x := by
  unfold coefA3; simp only [a3, eval_add, eval_sub, eval_mul, eval_const, eval_pow, eval_e, eval_n]; push_cast; ring
theorem C3_eval : coefC3 n e = [q1.eval n e x, q2.eval n e x, q3.eval n e x, q4.eval n e x, q5.eval n e x] := by
  unfold coefC3
  simp only [q1, q2, q3, q4, q5, eval_add, eval_sub, eval_mul, eval_const, eval_pow, eval_e, eval_n, List.cons.injEq, and_true]
  push_cast
  refine ⟨?_, ?_, ?_, ?_, ?_⟩ <;> ring
end

theorem sine_six (s c1 c2 c3 c4 c5 c6 : ℝ) : sineSum s [c1, c2, c3, c4, c5, c6] = c1 * Real.sin (2 * s) + c2 * Real.sin (2 * (2 * s))
    + c3 * Real.sin (3 * (2 * s)) + c4 * Real.sin (4 * (2 * s)) + c5 * Real.sin (5 * (2 * s)) + c6 * Real.sin (6 * (2 * s)) := by
  simp only [sineSum, sineSumFrom]
  push_cast
  ring_nf

theorem cos_six (s c1 c2 c3 c4 c5 c6 : ℝ) : cosSumFrom s 0 [c1, c2, c3, c4, c5, c6] = 2 * c1 * Real.cos (2 * s) + 4 * c2 * Real.cos (2 * (2 * s))
    + 6 * c3 * Real.cos (3 * (2 * s)) + 8 * c4 * Real.cos (4 * (2 * s)) + 10 * c5 * Real.cos (5 * (2 * s)) + 12 * c6 * Real.cos (6 * (2 * s)) := by
  simp only [cosSumFrom]
  push_cast
  ring_nf

theorem cos_five (s c1 c2 c3 c4 c5 : ℝ) : cosSumFrom s 0 [c1, c2, c3, c4, c5] = 2 * c1 * Real.cos (2 * s) + 4 * c2 * Real.cos (2 * (2 * s))
    + 6 * c3 * Real.cos (3 * (2 * s)) + 8 * c4 * Real.cos (4 * (2 * s)) + 10 * c5 * Real.cos (5 * (2 * s)) := by
  simp only [cosSumFrom]
  push_cast
  ring_nf

theorem arc_rate (n e s : ℝ) : coefA1 e * (1 + cosSumFrom s 0 (coefC1 e)) = 1 / (1 - e) * hh.eval n e (Real.cos (2 * s)) := by
  rw [A1_eval n e (Real.cos (2 * s)), C1_eval n e (Real.cos (2 * s)), cos_six, cos2 n e (2 * s), cos3 n e (2 * s), cos4 n e (2 * s),
    cos5 n e (2 * s), cos6 n e (2 * s)]
  simp only [hh, eval_add, eval_mul, eval_const, eval_x]
  push_cast
  ring

theorem lon_rate (n e s : ℝ) : coefA3 n e * (1 + cosSumFrom s 0 (coefC3 n e)) = gg.eval n e (Real.cos (2 * s)) := by
  rw [A3_eval n e (Real.cos (2 * s)), C3_eval n e (Real.cos (2 * s)), cos_five, cos2 n e (2 * s), cos3 n e (2 * s), cos4 n e (2 * s),
    cos5 n e (2 * s)]
  simp only [gg, eval_add, eval_mul, eval_const, eval_x]
  push_cast
  ring

/-- The first series: its derivative is the root to the seventh order. -/
theorem hh_error {e x : ℝ} (n : ℝ) (h0 : 0 ≤ e) (h1 : e ≤ 1 / 10) (hx : |x| ≤ 1) :
    |hh.eval n e x - Real.sqrt (1 - 2 * e * x + e ^ 2)| ≤ 14 * e ^ 7 ∧ 4 / 5 ≤ hh.eval n e x := by
  have hn : hh.eval n e x = hh.eval e e x := by
    simp only [hh, a1, p1, p2, p3, p4, p5, p6, t2, t3, t4, t5, t6, eval_add, eval_sub, eval_mul, eval_pow, eval_const, eval_x, eval_e]
  rw [hn]
  have k1 := bound arc_check h0 le_rfl h1 hx
  have k2 := bound hh_check h0 le_rfl h1 hx
  simp only [arcEx, eval_add, eval_sub, eval_mul, eval_pow, eval_const, eval_x, eval_e] at k1 k2
  push_cast at k1 k2
  generalize hh.eval e e x = H at *
  have hH : 4 / 5 ≤ H := by
    have := (abs_le.1 k2).1
    rw [pow_one] at this
    linarith
  obtain ⟨x1, x2⟩ := abs_le.1 hx
  have hY : (9 / 10) ^ 2 ≤ 1 - 2 * e * x + e ^ 2 := by nlinarith
  have hr := Real.le_sqrt_of_sq_le hY
  have hr2 := Real.sq_sqrt (show 0 ≤ 1 - 2 * e * x + e ^ 2 by linarith [show (0 : ℝ) ≤ (9 / 10) ^ 2 by norm_num])
  generalize Real.sqrt (1 - 2 * e * x + e ^ 2) = r at *
  refine ⟨?_, hH⟩
  have e1 : |H - r| * (H + r) = |H ^ 2 - (1 - 2 * e * x + e ^ 2)| := by
    rw [← hr2, show H ^ 2 - r ^ 2 = (H - r) * (H + r) by ring, abs_mul, abs_of_pos (show 0 < H + r by linarith)]
  have e2 : |H - r| * (17 / 10) ≤ |H - r| * (H + r) := mul_le_mul_of_nonneg_left (by linarith) (abs_nonneg _)
  have : 0 ≤ e ^ 7 := by positivity
  linarith

/-- The third series: its derivative is the quotient to the sixth order. -/
theorem gg_error {n e x : ℝ} (h0 : 0 ≤ e) (h1 : e ≤ n) (h2 : n ≤ 1 / 10) (hx : |x| ≤ 1) :
    |gg.eval n e x - 2 * (1 - e) / ((1 + n) * (1 - e) + (1 - n) * Real.sqrt (1 - 2 * e * x + e ^ 2))| ≤ 35 * n ^ 6 := by
  have k1 := bound lon_check h0 h1 h2 hx
  have k2 := bound gg_check h0 h1 h2 hx
  obtain ⟨k3, -⟩ := hh_error n h0 (h1.trans h2) hx
  simp only [lonEx, eval_add, eval_sub, eval_mul, eval_pow, eval_const, eval_e, eval_n] at k1 k2
  push_cast at k1 k2
  generalize hh.eval n e x = H at *
  generalize gg.eval n e x = G at *
  obtain ⟨x1, x2⟩ := abs_le.1 hx
  have hY : (1 - e) ^ 2 ≤ 1 - 2 * e * x + e ^ 2 := by nlinarith
  have hr := Real.le_sqrt_of_sq_le hY
  generalize Real.sqrt (1 - 2 * e * x + e ^ 2) = r at *
  have hD : 9 / 5 ≤ (1 + n) * (1 - e) + (1 - n) * r := by nlinarith
  obtain ⟨D, hD'⟩ : ∃ D, D = (1 + n) * (1 - e) + (1 - n) * r := ⟨_, rfl⟩
  rw [← hD'] at hD ⊢
  have hn : 0 ≤ n := h0.trans h1
  have hG : |G| ≤ 6 / 5 := by
    rw [abs_le] at k2 ⊢
    rw [pow_one] at k2
    constructor <;> linarith [k2.1, k2.2]
  have e7 : e ^ 7 ≤ n ^ 6 / 10 := by
    calc e ^ 7 ≤ n ^ 7 := pow_le_pow_left₀ h0 h1 7
      _ = n ^ 6 * n := by ring
      _ ≤ n ^ 6 * (1 / 10) := mul_le_mul_of_nonneg_left h2 (by positivity)
      _ = n ^ 6 / 10 := by ring
  have k4 : |D * G - 2 * (1 - e)| ≤ 63 * n ^ 6 := by
    have : D * G - 2 * (1 - e) = (((1 + n) * (1 - e) + (1 - n) * H) * G - 2 * (1 - e)) - (1 - n) * ((H - r) * G) := by rw [hD']; ring
    rw [this]
    refine (abs_sub _ _).trans ?_
    have j1 : |(1 - n) * ((H - r) * G)| ≤ 1 * (14 * e ^ 7 * (6 / 5)) := by
      rw [abs_mul, abs_mul]
      refine mul_le_mul ?_ (mul_le_mul k3 hG (abs_nonneg _) (by positivity)) (by positivity) zero_le_one
      rw [abs_of_nonneg (by linarith)]; linarith
    have : 0 ≤ n ^ 6 := by positivity
    linarith
  have e1 : G - 2 * (1 - e) / D = (D * G - 2 * (1 - e)) / D := by field_simp
  rw [e1, abs_div, abs_of_pos (show 0 < D by linarith), div_le_iff₀ (by linarith)]
  have : 0 ≤ n ^ 6 := by positivity
  nlinarith

/-! ### The reverted series -/

/-- Taylor's formula for the sine. -/
noncomputable def taylor (t h : ℝ) : ℕ → ℝ
  | 0 => 0
  | m + 1 => taylor t h m + Real.sin (t + m * (Real.pi / 2)) * h ^ m / m.factorial

theorem taylor_zero (t : ℝ) (m : ℕ) : taylor t 0 (m + 1) = Real.sin t := by
  induction m with
  | zero => simp [taylor]
  | succ m ih => rw [taylor, ih]; simp

theorem taylor_deriv (t h : ℝ) (m : ℕ) : HasDerivAt (fun h => taylor t h (m + 1)) (taylor (t + Real.pi / 2) h m) h := by
  induction m with
  | zero => simpa [taylor] using hasDerivAt_const h (Real.sin t)
  | succ m ih =>
    have d := ih.add (((hasDerivAt_pow (m + 1) h).const_mul (Real.sin (t + ((m + 1 : ℕ) : ℝ) * (Real.pi / 2)))).div_const ((m + 1).factorial : ℝ))
    refine d.congr_deriv ?_
    rw [taylor, Nat.factorial_succ]
    have : ((m.factorial : ℕ) : ℝ) ≠ 0 := by exact_mod_cast m.factorial_ne_zero
    have h2 : ((m : ℝ) + 1) ≠ 0 := by positivity
    push_cast
    rw [show t + ((m : ℝ) + 1) * (Real.pi / 2) = t + Real.pi / 2 + m * (Real.pi / 2) by ring]
    field_simp

theorem taylor_bound (m : ℕ) : ∀ t h : ℝ, 0 ≤ h → |Real.sin (t + h) - taylor t h m| ≤ h ^ m / m.factorial := by
  induction m with
  | zero => intro t h _; simpa [taylor] using Real.abs_sin_le_one (t + h)
  | succ m ih =>
    intro t h hh
    have d : ∀ u, HasDerivAt (fun u => Real.sin (t + u) - taylor t u (m + 1)) (Real.sin (t + Real.pi / 2 + u) - taylor (t + Real.pi / 2) u m) u := by
      intro u
      have d1 := ((hasDerivAt_id u).const_add t).sin.sub (taylor_deriv t u m)
      refine d1.congr_deriv ?_
      rw [show t + Real.pi / 2 + u = (t + u) + Real.pi / 2 by ring, Real.sin_add_pi_div_two]
      simp
    have dp : ∀ u : ℝ, HasDerivAt (fun u : ℝ => u ^ (m + 1) / ((m + 1).factorial : ℝ)) (u ^ m / m.factorial) u := by
      intro u
      refine ((hasDerivAt_pow (m + 1) u).div_const _).congr_deriv ?_
      have : ((m.factorial : ℕ) : ℝ) ≠ 0 := by exact_mod_cast m.factorial_ne_zero
      have h2 : ((m : ℝ) + 1) ≠ 0 := by positivity
      rw [Nat.factorial_succ]
      push_cast
      field_simp
    have up : ∀ g g' : ℝ → ℝ, (∀ u, HasDerivAt g (g' u) u) → g 0 = 0 → (∀ u, 0 ≤ u → 0 ≤ g' u) → 0 ≤ g h := by
      intro g g' hg g0 hp
      have mono : MonotoneOn g (Set.Ici 0) := monotoneOn_of_deriv_nonneg (convex_Ici 0) (fun u _ => (hg u).continuousAt.continuousWithinAt)
        (fun u _ => (hg u).differentiableAt.differentiableWithinAt) (fun u hu => by
          rw [interior_Ici] at hu
          rw [(hg u).deriv]; exact hp u (le_of_lt hu))
      have := mono (Set.mem_Ici.2 le_rfl) (Set.mem_Ici.2 hh) hh
      rw [g0] at this
      exact this
    have z : Real.sin (t + 0) - taylor t 0 (m + 1) = 0 := by rw [taylor_zero, add_zero, sub_self]
    have i1 := up _ _ (fun u => (dp u).sub (d u)) (by simp only [Pi.sub_apply]; rw [z]; simp) (fun u hu => by
      have := (abs_le.1 (ih (t + Real.pi / 2) u hu)).2; linarith)
    have i2 := up _ _ (fun u => (dp u).add (d u)) (by simp only [Pi.add_apply]; rw [z]; simp) (fun u hu => by
      have := (abs_le.1 (ih (t + Real.pi / 2) u hu)).1; linarith)
    simp only [Pi.sub_apply, Pi.add_apply] at i1 i2
    rw [abs_le]
    constructor <;> linarith

theorem taylor_neg (t h : ℝ) (m : ℕ) : taylor (-t) (-h) m = -taylor t h m := by
  induction m with
  | zero => simp [taylor]
  | succ m ih =>
    rw [taylor, taylor, ih]
    have e1 : Real.sin (-t + m * (Real.pi / 2)) = -((-1) ^ m * Real.sin (t + m * (Real.pi / 2))) := by
      rw [← Real.sin_sub_nat_mul_pi, ← Real.sin_neg]
      congr 1
      ring
    have e2 : (-1 : ℝ) ^ m * (-1) ^ m = 1 := by rw [← mul_pow]; norm_num
    rw [e1, neg_pow h]
    linear_combination (-(Real.sin (t + m * (Real.pi / 2)) * h ^ m / m.factorial)) * e2

theorem taylor_error (m : ℕ) (t h : ℝ) : |Real.sin (t + h) - taylor t h m| ≤ |h| ^ m / m.factorial := by
  rcases le_total 0 h with hh | hh
  · rw [abs_of_nonneg hh]; exact taylor_bound m t h hh
  · have := taylor_bound m (-t) (-h) (by linarith)
    rw [taylor_neg, show -t + -h = -(t + h) by ring, Real.sin_neg, show -Real.sin (t + h) - -taylor t h m = -(Real.sin (t + h) - taylor t h m) by ring,
      abs_neg] at this
    rw [abs_of_nonpos hh]; exact this

theorem taylor_one (t h : ℝ) : taylor t h 1 = Real.sin t := by simp [taylor]
theorem taylor_two (t h : ℝ) : taylor t h 2 = Real.sin t + Real.cos t * h := by
  rw [taylor, taylor_one]; push_cast; rw [one_mul, Real.sin_add_pi_div_two]; simp
theorem taylor_three (t h : ℝ) : taylor t h 3 = Real.sin t + Real.cos t * h - Real.sin t * h ^ 2 / 2 := by
  rw [taylor, taylor_two, show t + ((2 : ℕ) : ℝ) * (Real.pi / 2) = t + Real.pi by push_cast; ring, Real.sin_add_pi]
  simp [Nat.factorial]; ring
theorem taylor_four (t h : ℝ) : taylor t h 4 = Real.sin t + Real.cos t * h - Real.sin t * h ^ 2 / 2 - Real.cos t * h ^ 3 / 6 := by
  rw [taylor, taylor_three, show t + ((3 : ℕ) : ℝ) * (Real.pi / 2) = (t + Real.pi / 2) + Real.pi by push_cast; ring, Real.sin_add_pi, Real.sin_add_pi_div_two]
  simp [Nat.factorial]; ring
theorem taylor_five (t h : ℝ) : taylor t h 5 = Real.sin t + Real.cos t * h - Real.sin t * h ^ 2 / 2 - Real.cos t * h ^ 3 / 6 + Real.sin t * h ^ 4 / 24 := by
  rw [taylor, taylor_four, show t + ((4 : ℕ) : ℝ) * (Real.pi / 2) = t + 2 * Real.pi by push_cast; ring, Real.sin_add_two_pi]
  simp [Nat.factorial]
theorem taylor_six (t h : ℝ) : taylor t h 6 = Real.sin t + Real.cos t * h - Real.sin t * h ^ 2 / 2 - Real.cos t * h ^ 3 / 6 + Real.sin t * h ^ 4 / 24
    + Real.cos t * h ^ 5 / 120 := by
  rw [taylor, taylor_five, show t + ((5 : ℕ) : ℝ) * (Real.pi / 2) = (t + Real.pi / 2) + 2 * Real.pi by push_cast; ring, Real.sin_add_two_pi,
    Real.sin_add_pi_div_two]
  simp [Nat.factorial]

/-- One term of the series at the reverted argument. -/
theorem rev_term {e d p P : ℝ} (l j m : ℕ) (t : ℝ) (he : 0 ≤ e) (hd : |d| ≤ 7 / 10 * e) (hp : |p| ≤ P * e ^ j) :
    |p * Real.sin (l * (2 * (t + d))) - p * taylor (l * (2 * t)) (2 * l * d) m| ≤ P * (7 / 5 * l) ^ m / m.factorial * e ^ (j + m) := by
  have k := taylor_error m (l * (2 * t)) (2 * l * d)
  rw [show (l : ℝ) * (2 * (t + d)) = l * (2 * t) + 2 * l * d by ring, ← mul_sub, abs_mul]
  have k2 : |2 * l * d| ≤ 7 / 5 * l * e := by
    rw [abs_mul, abs_of_nonneg (show (0 : ℝ) ≤ 2 * l by positivity)]
    calc (2 : ℝ) * l * |d| ≤ 2 * l * (7 / 10 * e) := by gcongr
      _ = 7 / 5 * l * e := by ring
  have hf : (0 : ℝ) < m.factorial := by exact_mod_cast m.factorial_pos
  calc |p| * |Real.sin (l * (2 * t) + 2 * l * d) - taylor (l * (2 * t)) (2 * l * d) m| ≤ (P * e ^ j) * ((7 / 5 * l * e) ^ m / m.factorial) := by
        refine mul_le_mul hp (k.trans ?_) (abs_nonneg _) ((abs_nonneg _).trans hp)
        gcongr
    _ = P * (7 / 5 * l) ^ m / m.factorial * e ^ (j + m) := by rw [mul_pow, pow_add]; ring

theorem sum_seven {v a0 a1 a2 a3 a4 a5 a6 b0 b1 b2 b3 b4 b5 b6 B : ℝ} (h0 : |a0| ≤ b0) (h1 : |a1| ≤ b1) (h2 : |a2| ≤ b2) (h3 : |a3| ≤ b3)
    (h4 : |a4| ≤ b4) (h5 : |a5| ≤ b5) (h6 : |a6| ≤ b6) (hv : v = a0 + a1 + a2 + a3 + a4 + a5 + a6) (hB : b0 + b1 + b2 + b3 + b4 + b5 + b6 ≤ B) :
    |v| ≤ B := by
  rw [abs_le] at *
  constructor <;> linarith [h0.1, h0.2, h1.1, h1.2, h2.1, h2.2, h3.1, h3.2, h4.1, h4.2, h5.1, h5.2, h6.1, h6.2]

/-- The reverted series: the series applied to it gives back the argument to the seventh order. -/
theorem rev_error {e : ℝ} (t : ℝ) (h0 : 0 ≤ e) (h1 : e ≤ 1 / 10) :
    |t + sineSum t (coefC1p e) + sineSum (t + sineSum t (coefC1p e)) (coefC1 e) - t| ≤ 252 * e ^ 7 := by
  obtain ⟨x, hx⟩ : ∃ x, x = Real.cos (2 * t) := ⟨_, rfl⟩
  obtain ⟨y, hy⟩ : ∃ y, y = Real.sin (2 * t) := ⟨_, rfl⟩
  have hx1 : |x| ≤ 1 := by rw [hx]; exact Real.abs_cos_le_one _
  have hy1 : |y| ≤ 1 := by rw [hy]; exact Real.abs_sin_le_one _
  have hxy : y ^ 2 = ww.eval e e x := by
    simp only [ww, eval_sub, eval_const, eval_pow, eval_x]
    push_cast
    rw [hx, hy]
    linarith [Real.sin_sq_add_cos_sq (2 * t)]
  have kr := bound rev_check h0 le_rfl h1 hx1
  have kd := bound dd_check h0 le_rfl h1 hx1
  have c1 := bound p1_check h0 le_rfl h1 hx1
  have c2 := bound p2_check h0 le_rfl h1 hx1
  have c3 := bound p3_check h0 le_rfl h1 hx1
  have c4 := bound p4_check h0 le_rfl h1 hx1
  have c5 := bound p5_check h0 le_rfl h1 hx1
  have c6 := bound p6_check h0 le_rfl h1 hx1
  have hd : sineSum t (coefC1p e) = y * dd.eval e e x := by
    rw [C1p_eval e e x, sine_six, sin2 e e (2 * t), sin3 e e (2 * t), sin4 e e (2 * t), sin5 e e (2 * t), sin6 e e (2 * t), ← hx, ← hy]
    simp only [dd, eval_add, eval_mul]
    ring
  rw [hd]
  have hdb : |y * dd.eval e e x| ≤ 7 / 10 * e := by
    rw [abs_mul]
    push_cast at kd
    rw [pow_one] at kd
    calc |y| * |dd.eval e e x| ≤ 1 * (7 / 10 * e) := mul_le_mul hy1 kd (abs_nonneg _) zero_le_one
      _ = 7 / 10 * e := one_mul _
  obtain ⟨d, hd'⟩ : ∃ d, d = y * dd.eval e e x := ⟨_, rfl⟩
  rw [← hd'] at hdb ⊢
  rw [C1_eval e e x, sine_six]
  have w1 := rev_term 1 1 6 t h0 hdb c1
  have w2 := rev_term 2 2 5 t h0 hdb c2
  have w3 := rev_term 3 3 4 t h0 hdb c3
  have w4 := rev_term 4 4 3 t h0 hdb c4
  have w5 := rev_term 5 5 2 t h0 hdb c5
  have w6 := rev_term 6 6 1 t h0 hdb c6
  rw [taylor_six] at w1
  rw [taylor_five] at w2
  rw [taylor_four] at w3
  rw [taylor_three] at w4
  rw [taylor_two] at w5
  rw [taylor_one] at w6
  push_cast at w1 w2 w3 w4 w5 w6
  rw [one_mul, one_mul, ← hx, ← hy] at w1
  rw [sin2 e e (2 * t), cos2 e e (2 * t), ← hx, ← hy] at w2
  rw [sin3 e e (2 * t), cos3 e e (2 * t), ← hx, ← hy] at w3
  rw [sin4 e e (2 * t), cos4 e e (2 * t), ← hx, ← hy] at w4
  rw [sin5 e e (2 * t), cos5 e e (2 * t), ← hx, ← hy] at w5
  rw [sin6 e e (2 * t), ← hx, ← hy] at w6
  have ky : |y * revEx.eval e e x| ≤ 251 * e ^ 7 := by
    rw [abs_mul]
    push_cast at kr
    calc |y| * |revEx.eval e e x| ≤ 1 * (251 * e ^ 7) := mul_le_mul hy1 kr (abs_nonneg _) zero_le_one
      _ = 251 * e ^ 7 := one_mul _
  simp only [revEx, eval_add, eval_sub, eval_mul, eval_pow, eval_const, eval_x, ← hxy] at ky
  push_cast at ky
  generalize dd.eval e e x = g at *
  generalize p1.eval e e x = P1 at *
  generalize p2.eval e e x = P2 at *
  generalize p3.eval e e x = P3 at *
  generalize p4.eval e e x = P4 at *
  generalize p5.eval e e x = P5 at *
  generalize p6.eval e e x = P6 at *
  generalize t2.eval e e x = T2 at *
  generalize t3.eval e e x = T3 at *
  generalize t4.eval e e x = T4 at *
  generalize t5.eval e e x = T5 at *
  generalize u2.eval e e x = U2 at *
  generalize u3.eval e e x = U3 at *
  generalize u4.eval e e x = U4 at *
  generalize u5.eval e e x = U5 at *
  generalize u6.eval e e x = U6 at *
  generalize Real.sin (2 * (t + d)) = S1 at *
  generalize Real.sin (2 * (2 * (t + d))) = S2 at *
  generalize Real.sin (3 * (2 * (t + d))) = S3 at *
  generalize Real.sin (4 * (2 * (t + d))) = S4 at *
  generalize Real.sin (5 * (2 * (t + d))) = S5 at *
  generalize Real.sin (6 * (2 * (t + d))) = S6 at *
  have he7 : 0 ≤ e ^ 7 := by positivity
  subst hd'
  refine sum_seven ky w1 w2 w3 w4 w5 w6 (by ring) ?_
  norm_num [Nat.factorial]
  linarith

end Karta.Geod.SeriesBounds
