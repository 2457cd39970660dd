import Verif.Geod.SphereProps
import Mathlib.Analysis.Real.Pi.Bounds

/-!
# Crossings of short segments on the far side of the sphere

Property C90 for segments shorter than half a degree between the meridians 90 and 180.
-/

namespace Karta.Geod.Sphere

/-- A horizontal vector next to the plane x = 0: the longitude is taken from the sine alone. -/
theorem cart2sph_small {x y K : ℝ} (hK : 0 < K) (hxy : x ^ 2 + y ^ 2 = K ^ 2) (hx : |x| ≤ 1 / 10 ^ 4) :
    cart2sph (1 / 10 ^ 4) ⟨x, y, 0⟩ = .ok (Real.arcsin (y / K) * 180 / Real.pi, 0) := by
  have r : Real.sqrt (x ^ 2 + y ^ 2) = K := by rw [hxy, Real.sqrt_sq hK.le]
  have n : Real.sqrt (x ^ 2 + y ^ 2 + 0 ^ 2) = K := by rw [show x ^ 2 + y ^ 2 + (0 : ℝ) ^ 2 = K ^ 2 by rw [← hxy]; ring, Real.sqrt_sq hK.le]
  unfold cart2sph
  dsimp only
  rw [r, n, if_neg (fun h => hK.ne' h.2), if_neg (fun h => hK.ne' h.2), if_neg (not_lt.2 hx), if_neg (by rw [abs_zero]; norm_num), zero_div,
    Real.arccos_zero]
  congr 2
  ring

/-- A piece of the equator, `w` degrees to either side of longitude `lam`. -/
noncomputable def along (lam w : ℝ) : Seg := ⟨(lam - w, 0), (lam + w, 0)⟩
/-- A piece of the meridian `lam`, `h` degrees to either side of the equator, northwards. -/
noncomputable def across (lam h : ℝ) : Seg := ⟨(lam, -h), (lam, h)⟩

theorem pole_along (lam w : ℝ) : eulerpole (along lam w) = ⟨0, 0, Real.sin (Real.pi * (2 * w) / 180)⟩ := by
  unfold eulerpole along
  rw [sph2cart_eq, sph2cart_eq]
  simp only [cross, mul_zero, zero_div, Real.sin_zero, Real.cos_zero, one_mul, zero_mul, mul_zero, sub_zero, V3.mk.injEq, true_and]
  rw [show Real.pi * (2 * w) / 180 = Real.pi * (lam + w) / 180 - Real.pi * (lam - w) / 180 by ring, Real.sin_sub]
  ring

theorem pole_across (lam h : ℝ) : eulerpole (across lam h) =
    ⟨Real.sin (Real.pi * (2 * h) / 180) * Real.sin (Real.pi * lam / 180), -(Real.sin (Real.pi * (2 * h) / 180) * Real.cos (Real.pi * lam / 180)), 0⟩ := by
  unfold eulerpole across
  rw [sph2cart_eq, sph2cart_eq]
  have e : Real.pi * (2 * h) / 180 = 2 * (Real.pi * h / 180) := by ring
  have e' : Real.pi * (-h) / 180 = -(Real.pi * h / 180) := by ring
  rw [e, e', Real.sin_two_mul, Real.sin_neg, Real.cos_neg]
  simp only [cross, V3.mk.injEq]
  refine ⟨by ring, by ring, by ring⟩

theorem inRange_along {lam w : ℝ} (hw : 0 < w) (h1 : 90 + w < lam) (h2 : lam < 180 - w) (q : ℝ × ℝ) :
    inRange q (along lam w) ↔ 0 ≤ reduceDeg (q.1 - (lam - w)) ∧ reduceDeg (q.1 - (lam - w)) ≤ 2 * w := by
  have u1 : unrollDeg (lam - w) = lam - w := unroll_val 0 (by simp) (by linarith) (by linarith)
  have u2 : unrollDeg (lam + w) = lam + w := unroll_val 0 (by simp) (by linarith) (by linarith)
  have d : lam + w - (lam - w) = 2 * w := by ring
  have r : reduceDeg (2 * w) = 2 * w := reduce_val 0 (by simp) (by linarith) (by linarith)
  have u : unrollDeg (2 * w) = 2 * w := unroll_val 0 (by simp) (by linarith) (by linarith)
  unfold inRange along
  dsimp only
  rw [u1, u2, d, r, if_neg (by rintro ⟨-, h⟩; rw [sub_zero, abs_zero] at h; exact absurd h (not_lt.2 (abs_nonneg _)))]
  unfold isbetween
  rw [d, u, if_neg (by linarith), r]

theorem inRange_across {lam h : ℝ} (hh : 0 < h) (h1 : 0 ≤ lam) (h2 : lam < 360) : inRange (lam, 0) (across lam h) := by
  have u1 : unrollDeg lam = lam := unroll_val 0 (by simp) h1 h2
  have u2 : pyModR (lam + 360) 360 = lam := unroll_val 1 (by push_cast; ring) h1 h2
  unfold inRange across
  dsimp only
  rw [u1, sub_self, reduce_zero, abs_zero, if_pos ⟨by norm_num, by rw [abs_pos]; intro h0; linarith⟩, u2, sub_self, abs_zero]
  exact ⟨by norm_num, by linarith, hh.le⟩

theorem small_product {w h : ℝ} (hw : 0 < w) (hw' : w ≤ 1 / 4) (hh : 0 < h) (hh' : h ≤ 1 / 4) :
    0 < Real.sin (Real.pi * (2 * w) / 180) * Real.sin (Real.pi * (2 * h) / 180) ∧
    Real.sin (Real.pi * (2 * w) / 180) * Real.sin (Real.pi * (2 * h) / 180) ≤ 1 / 10 ^ 4 := by
  have p1 := Real.pi_gt_three
  have p2 := Real.pi_lt_d2
  have key : ∀ x : ℝ, 0 < x → x ≤ 1 / 4 → 0 < Real.sin (Real.pi * (2 * x) / 180) ∧ Real.sin (Real.pi * (2 * x) / 180) ≤ 1 / 100 := by
    intro x x0 x1
    have a0 : 0 < Real.pi * (2 * x) / 180 := by positivity
    have a1 : Real.pi * (2 * x) / 180 ≤ 1 / 100 := by norm_num at p2 ⊢; nlinarith
    exact ⟨Real.sin_pos_of_pos_of_lt_pi a0 (by linarith), (Real.sin_le a0.le).trans a1⟩
  obtain ⟨a, b⟩ := key w hw hw'
  obtain ⟨c, d⟩ := key h hh hh'
  refine ⟨mul_pos a c, ?_⟩
  calc _ ≤ (1 / 100 : ℝ) * (1 / 100) := mul_le_mul b d c.le (by norm_num)
    _ = _ := by norm_num

/-- The position where they cross is on both great circles. -/
theorem cross_on_both (lam w h : ℝ) : OnGreatCircle (along lam w) (lam, 0) ∧ OnGreatCircle (across lam h) (lam, 0) := by
  rw [onGreatCircle_iff, onGreatCircle_iff, pole_along, pole_across, sph2cart_eq]
  simp only [V3.dot, mul_zero, zero_div, Real.sin_zero, Real.cos_zero]
  constructor <;> ring

/-- **C90 (violated) for short segments between the meridians 90 and 180.** A piece of the equator and a piece of a meridian, each at most
half a degree long, that cross in their middle: the crossing is not found. -/
theorem C90_violated_far_side (lam w h : ℝ) (hw : 0 < w) (hw' : w ≤ 1 / 4) (hh : 0 < h) (hh' : h ≤ 1 / 4) (h1 : 90 + w < lam) (h2 : lam < 180 - w) :
    intersection (along lam w) (across lam h) = .error .other := by
  obtain ⟨K0, K1⟩ := small_product hw hw' hh hh'
  generalize hK : Real.sin (Real.pi * (2 * w) / 180) * Real.sin (Real.pi * (2 * h) / 180) = K at K0 K1
  have v : cross (eulerpole (along lam w)) (eulerpole (across lam h)) =
      ⟨K * Real.cos (Real.pi * lam / 180), K * Real.sin (Real.pi * lam / 180), 0⟩ := by
    rw [pole_along, pole_across, ← hK]
    simp only [cross, V3.mk.injEq]
    refine ⟨by ring, by ring, by ring⟩
  have pp := Real.pi_pos
  have arc : Real.arcsin (K * Real.sin (Real.pi * lam / 180) / K) = Real.pi - Real.pi * lam / 180 := by
    rw [mul_div_cancel_left₀ _ K0.ne', ← Real.sin_pi_sub]
    apply Real.arcsin_sin <;> nlinarith
  have c : cart2sph (1 / 10 ^ 4) ⟨K * Real.cos (Real.pi * lam / 180), K * Real.sin (Real.pi * lam / 180), 0⟩ = .ok (180 - lam, 0) := by
    rw [cart2sph_small K0 (by rw [mul_pow, mul_pow, ← mul_add, Real.cos_sq_add_sin_sq, mul_one]) (by
      rw [abs_mul, abs_of_pos K0]
      exact (mul_le_of_le_one_right K0.le (Real.abs_cos_le_one _)).trans K1), arc]
    congr 2
    field_simp
  unfold intersection
  rw [v, c]
  dsimp only
  have m : pyModR (180 - lam + 360) 360 - 180 = -lam := by
    have : pyModR (180 - lam + 360) 360 = 180 - lam := unroll_val 1 (by push_cast; ring) (by linarith) (by linarith)
    rw [this]; ring
  rw [m, if_neg, if_neg]
  · rintro ⟨a, -⟩
    rw [inRange_along hw h1 h2] at a
    have : reduceDeg (-lam - (lam - w)) = 360 - 2 * lam + w := reduce_val (-1) (by push_cast; ring) (by linarith) (by linarith)
    rw [this] at a
    linarith [a.2]
  · rintro ⟨a, -⟩
    rw [inRange_along hw h1 h2] at a
    have : reduceDeg (180 - lam - (lam - w)) = 180 - 2 * lam + w := reduce_val 0 (by simp; ring) (by linarith) (by linarith)
    rw [this] at a
    linarith [a.1]

/-- **C90 (violated): the order of the lines matters.** The same two segments the other way round: the crossing is found. -/
theorem C90_violated_order (lam w h : ℝ) (hw : 0 < w) (hw' : w ≤ 1 / 4) (hh : 0 < h) (hh' : h ≤ 1 / 4) (h1 : 90 + w < lam) (h2 : lam < 180 - w) :
    intersection (across lam h) (along lam w) = .ok (lam, 0) ∧ intersection (along lam w) (across lam h) = .error .other := by
  refine ⟨?_, C90_violated_far_side lam w h hw hw' hh hh' h1 h2⟩
  obtain ⟨K0, K1⟩ := small_product hw hw' hh hh'
  generalize hK : Real.sin (Real.pi * (2 * w) / 180) * Real.sin (Real.pi * (2 * h) / 180) = K at K0 K1
  have v : cross (eulerpole (across lam h)) (eulerpole (along lam w)) =
      ⟨-(K * Real.cos (Real.pi * lam / 180)), -(K * Real.sin (Real.pi * lam / 180)), 0⟩ := by
    rw [pole_along, pole_across, ← hK]
    simp only [cross, V3.mk.injEq]
    refine ⟨by ring, by ring, by ring⟩
  have pp := Real.pi_pos
  have arc : Real.arcsin (-(K * Real.sin (Real.pi * lam / 180)) / K) = Real.pi * lam / 180 - Real.pi := by
    rw [neg_div, mul_div_cancel_left₀ _ K0.ne', ← Real.sin_pi_sub, ← Real.sin_neg]
    rw [show Real.pi * lam / 180 - Real.pi = -(Real.pi - Real.pi * lam / 180) by ring]
    apply Real.arcsin_sin <;> nlinarith
  have c : cart2sph (1 / 10 ^ 4) ⟨-(K * Real.cos (Real.pi * lam / 180)), -(K * Real.sin (Real.pi * lam / 180)), 0⟩ = .ok (lam - 180, 0) := by
    rw [cart2sph_small K0 (by rw [neg_sq, neg_sq, mul_pow, mul_pow, ← mul_add, Real.cos_sq_add_sin_sq, mul_one]) (by
      rw [abs_neg, abs_mul, abs_of_pos K0]
      exact (mul_le_of_le_one_right K0.le (Real.abs_cos_le_one _)).trans K1), arc]
    congr 2
    field_simp
  unfold intersection
  rw [v, c]
  dsimp only
  have m : pyModR (lam - 180 + 360) 360 - 180 = lam := by
    have : pyModR (lam - 180 + 360) 360 = lam + 180 := unroll_val 0 (by push_cast; ring) (by linarith) (by linarith)
    rw [this]; ring
  rw [m, neg_zero, if_neg, if_pos]
  · refine ⟨inRange_across hh (by linarith) (by linarith), ?_⟩
    rw [inRange_along hw h1 h2]
    have : reduceDeg (lam - (lam - w)) = w := reduce_val 0 (by simp) (by linarith) (by linarith)
    dsimp only
    rw [this]
    constructor <;> linarith
  · rintro ⟨-, a⟩
    rw [inRange_along hw h1 h2] at a
    have : reduceDeg (lam - 180 - (lam - w)) = w - 180 := reduce_val 0 (by push_cast; ring) (by linarith) (by linarith)
    dsimp only at a
    rw [this] at a
    linarith [a.1]

/-- Crossing at longitude 135, both segments 0.4 degrees (45 km) long. -/
example : intersection (along 135 (1 / 5)) (across 135 (1 / 5)) = .error .other ∧
    OnGreatCircle (along 135 (1 / 5)) (135, 0) ∧ OnGreatCircle (across 135 (1 / 5)) (135, 0) :=
  ⟨C90_violated_far_side _ _ _ (by norm_num) (by norm_num) (by norm_num) (by norm_num) (by norm_num) (by norm_num), cross_on_both _ _ _⟩

/-! ### C89: long segments that cross at a small angle -/

/-- The great circle from longitude 45, `i` degrees south of the equator, to the equator at longitude 135. -/
noncomputable def slant (i : ℝ) : Seg := ⟨(45, -i), (135, 0)⟩

theorem cos45 : Real.cos (Real.pi * 45 / 180) = Real.sqrt 2 / 2 := by
  rw [show Real.pi * 45 / 180 = Real.pi / 4 by ring, Real.cos_pi_div_four]
theorem sin45 : Real.sin (Real.pi * 45 / 180) = Real.sqrt 2 / 2 := by
  rw [show Real.pi * 45 / 180 = Real.pi / 4 by ring, Real.sin_pi_div_four]
theorem cos135 : Real.cos (Real.pi * 135 / 180) = -(Real.sqrt 2 / 2) := by
  rw [show Real.pi * 135 / 180 = Real.pi - Real.pi / 4 by ring, Real.cos_pi_sub, Real.cos_pi_div_four]
theorem sin135 : Real.sin (Real.pi * 135 / 180) = Real.sqrt 2 / 2 := by
  rw [show Real.pi * 135 / 180 = Real.pi - Real.pi / 4 by ring, Real.sin_pi_sub, Real.sin_pi_div_four]

theorem pole_slant (i : ℝ) : eulerpole (slant i) = ⟨Real.sqrt 2 / 2 * Real.sin (Real.pi * i / 180), Real.sqrt 2 / 2 * Real.sin (Real.pi * i / 180),
    Real.cos (Real.pi * i / 180)⟩ := by
  have h2 : Real.sqrt 2 ^ 2 = 2 := Real.sq_sqrt (by norm_num)
  unfold eulerpole slant
  rw [sph2cart_eq, sph2cart_eq]
  have e' : Real.pi * (-i) / 180 = -(Real.pi * i / 180) := by ring
  simp only [cross, V3.mk.injEq, cos45, sin45, cos135, sin135, e', Real.sin_neg, Real.cos_neg, mul_zero, zero_div, Real.sin_zero, Real.cos_zero]
  refine ⟨by ring, by ring, ?_⟩
  linear_combination (Real.cos (Real.pi * i / 180) / 2) * h2

/-- **C89 (violated) for crossings beyond the meridian 90 at a small angle.** The equator between the longitudes 30 and 150 is crossed at
longitude 135 by a segment inclined by at most 1/200 degree.  The position reported is at longitude 45 and not on that segment. -/
theorem C89_violated_far_side (i : ℝ) (h0 : 0 < i) (h1 : i ≤ 1 / 200) :
    intersection (along 90 60) (slant i) = .ok (45, 0) ∧ ¬ OnGreatCircle (slant i) (45, 0) ∧
    OnGreatCircle (along 90 60) (135, 0) ∧ OnGreatCircle (slant i) (135, 0) := by
  have h2 : Real.sqrt 2 ^ 2 = 2 := Real.sq_sqrt (by norm_num)
  have h20 : 0 < Real.sqrt 2 := by positivity
  have p1 := Real.pi_gt_three
  have p2 := Real.pi_lt_d2
  have a0 : 0 < Real.pi * i / 180 := by positivity
  have a1 : Real.pi * i / 180 ≤ 1 / 10 ^ 4 := by norm_num at p2 ⊢; nlinarith
  have si0 : 0 < Real.sin (Real.pi * i / 180) := Real.sin_pos_of_pos_of_lt_pi a0 (by norm_num at a1; linarith)
  have si1 : Real.sin (Real.pi * i / 180) ≤ 1 / 10 ^ 4 := (Real.sin_le a0.le).trans a1
  have k0 : 0 < Real.sin (Real.pi * (2 * 60) / 180) := Real.sin_pos_of_pos_of_lt_pi (by positivity) (by linarith)
  have k1 := Real.sin_le_one (Real.pi * (2 * 60) / 180)
  have v : cross (eulerpole (along 90 60)) (eulerpole (slant i)) =
      ⟨-(Real.sin (Real.pi * (2 * 60) / 180) * Real.sin (Real.pi * i / 180) * (Real.sqrt 2 / 2)),
        Real.sin (Real.pi * (2 * 60) / 180) * Real.sin (Real.pi * i / 180) * (Real.sqrt 2 / 2), 0⟩ := by
    rw [pole_along, pole_slant]
    simp only [cross, V3.mk.injEq]
    refine ⟨by ring, by ring, by ring⟩
  have K0 := mul_pos k0 si0
  have K1 : Real.sin (Real.pi * (2 * 60) / 180) * Real.sin (Real.pi * i / 180) ≤ 1 / 10 ^ 4 := by nlinarith
  refine ⟨?_, ?_, ?_, ?_⟩
  · generalize Real.sin (Real.pi * (2 * 60) / 180) * Real.sin (Real.pi * i / 180) = K at v K0 K1
    have c : cart2sph (1 / 10 ^ 4) ⟨-(K * (Real.sqrt 2 / 2)), K * (Real.sqrt 2 / 2), 0⟩ = .ok (45, 0) := by
      have arc : Real.arcsin (K * (Real.sqrt 2 / 2) / K) = Real.pi / 4 := by
        rw [mul_div_cancel_left₀ _ K0.ne', ← Real.sin_pi_div_four]
        apply Real.arcsin_sin <;> linarith
      rw [cart2sph_small K0 (by linear_combination (K ^ 2 / 2) * h2) (by
        rw [abs_neg, abs_of_pos (by positivity)]
        nlinarith), arc]
      congr 2
      field_simp
      norm_num
    have r1 : inRange (45, 0) (along 90 60) := by
      have u1 : unrollDeg (90 - 60) = 30 := unroll_val 0 (by norm_num) (by norm_num) (by norm_num)
      have u2 : unrollDeg (90 + 60) = 150 := unroll_val 0 (by norm_num) (by norm_num) (by norm_num)
      have u3 : unrollDeg (150 - 30) = 120 := unroll_val 0 (by norm_num) (by norm_num) (by norm_num)
      have r : reduceDeg (150 - 30) = 120 := reduce_val 0 (by norm_num) (by norm_num) (by norm_num)
      have q : reduceDeg (45 - 30) = 15 := reduce_val 0 (by norm_num) (by norm_num) (by norm_num)
      unfold inRange along
      dsimp only
      rw [u1, u2, r, if_neg (by rintro ⟨h, -⟩; norm_num at h)]
      unfold isbetween
      rw [u3, if_neg (by norm_num), r, q]
      norm_num
    have r2 : inRange (45, 0) (slant i) := by
      have u1 : unrollDeg 45 = 45 := unroll_val 0 (by norm_num) (by norm_num) (by norm_num)
      have u2 : unrollDeg 135 = 135 := unroll_val 0 (by norm_num) (by norm_num) (by norm_num)
      have u3 : unrollDeg (135 - 45) = 90 := unroll_val 0 (by norm_num) (by norm_num) (by norm_num)
      have r : reduceDeg (135 - 45) = 90 := reduce_val 0 (by norm_num) (by norm_num) (by norm_num)
      unfold inRange slant
      dsimp only
      rw [u1, u2, r, if_neg (by rintro ⟨h, -⟩; norm_num at h)]
      unfold isbetween
      rw [u3, if_neg (by norm_num), r, sub_self, reduce_zero]
      norm_num
    unfold intersection
    rw [v, c]
    dsimp only
    rw [if_pos ⟨r1, r2⟩]
  · rw [onGreatCircle_iff, pole_slant, sph2cart_eq]
    simp only [V3.dot, cos45, sin45, mul_zero, zero_div, Real.sin_zero, Real.cos_zero]
    intro h
    have : Real.sin (Real.pi * i / 180) = 0 := by linear_combination h - (Real.sin (Real.pi * i / 180) / 2) * h2
    linarith
  · rw [onGreatCircle_iff, pole_along, sph2cart_eq]
    simp [V3.dot]
  · rw [onGreatCircle_iff, pole_slant, sph2cart_eq]
    simp only [V3.dot, cos135, sin135, mul_zero, zero_div, Real.sin_zero, Real.cos_zero]
    ring

example : intersection (along 90 60) (slant (1 / 1000)) = .ok (45, 0) := (C89_violated_far_side _ (by norm_num) (by norm_num)).1

end Karta.Geod.Sphere
