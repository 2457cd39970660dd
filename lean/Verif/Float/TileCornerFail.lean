import Verif.Float.TileCorner

/-!
# A corner of a tile that is looked up in another tile

A tile at zoom level 19 whose own north-western corner is looked up in the next row to the north, whatever accurate mathematical
library is used (property C184).
-/

namespace Karta.Float.TileCorner
open Karta Karta.Float Karta.Float.TileRow Karta.Tile

theorem fail_exp_low : (1863692083643938784928724 / 10 ^ 24 : ℝ) ^ 4 ≤ Real.exp (43808730995871 / 2 ^ 44) := by
  have e : Real.exp (43808730995871 / 2 ^ 44) = Real.exp (43808730995871 / 2 ^ 46) ^ 4 := by
    rw [← Real.exp_nat_mul]; norm_num
  rw [e]
  apply pow_le_pow_left₀ (by norm_num)
  refine le_trans ?_ (Real.sum_le_exp_of_nonneg (by norm_num) 22)
  norm_num [Finset.sum_range_succ, Nat.factorial]

theorem fail_exp_up : Real.exp (249023804575875895105 / 10 ^ 20) ≤ (1863692083643939093116318 / 10 ^ 24) ^ 4 := by
  have e : Real.exp (249023804575875895105 / 10 ^ 20) = Real.exp (249023804575875895105 / (4 * 10 ^ 20)) ^ 4 := by
    rw [← Real.exp_nat_mul]; norm_num
  rw [e]
  apply pow_le_pow_left₀ (Real.exp_pos _).le
  refine (Real.exp_bound' (by norm_num) (by norm_num) (n := 22) (by norm_num)).trans ?_
  norm_num [Finset.sum_range_succ, Nat.factorial]

/-- The hyperbolic sine, even if it is too small by a unit in the last place, is above the tangent of a certain angle. -/
theorem fail_tan : Real.tan (14053939850511480804800 / 10 ^ 22) ≤ (1 - 1 / 2 ^ 52) * Real.sinh (43808730995871 / 2 ^ 44) := by
  have q1 := Real.pi_gt_d20
  have q2 := Real.pi_lt_d20
  obtain ⟨u, hu⟩ : ∃ u : ℝ, u = Real.pi / 2 - 14053939850511480804800 / 10 ^ 22 := ⟨_, rfl⟩
  have e : (14053939850511480804800 / 10 ^ 22 : ℝ) = Real.pi / 2 - u := by rw [hu]; ring
  rw [e, Real.tan_eq_sin_div_cos, Real.sin_pi_div_two_sub, Real.cos_pi_div_two_sub]
  set y : ℝ := 3.14159265358979323846 / 2 - 14053939850511480804800 / 10 ^ 22 with hy
  have yx : y ≤ u := by rw [hy, hu]; linarith
  have y0 : 0 < y := by rw [hy]; norm_num
  have u1 : u ≤ 1 := by rw [hu]; norm_num at q2 ⊢; linarith
  have pi3 := Real.pi_gt_three
  have hs : Real.sin y ≤ Real.sin u := Real.sin_le_sin_of_le_of_le_pi_div_two (by linarith) (by linarith) yx
  have hc : Real.cos u ≤ Real.cos y := Real.cos_le_cos_of_nonneg_of_le_pi y0.le (by linarith) yx
  have t := taylor12 (x := y) (by rw [abs_of_pos y0]; linarith)
  rw [abs_of_pos y0] at t
  have tc := (abs_le.1 t.1).2
  have ts := (abs_le.1 t.2).1
  have sp : 0 < Real.sin u := Real.sin_pos_of_pos_of_lt_pi (by linarith) (by linarith)
  have sh : ((1863692083643938784928724 / 10 ^ 24 : ℝ) ^ 4 - ((1863692083643938784928724 / 10 ^ 24 : ℝ) ^ 4)⁻¹) / 2 ≤
      Real.sinh (43808730995871 / 2 ^ 44) := by
    rw [Real.sinh_eq, Real.exp_neg]
    have h1 := fail_exp_low
    have h2 := inv_anti₀ (by norm_num) h1
    linarith
  have num : 1 - y ^ 2 / 2 + y ^ 4 / 24 - y ^ 6 / 720 + y ^ 8 / 40320 - y ^ 10 / 3628800 + y ^ 12 * (13 / 5748019200) ≤
      (1 - 1 / 2 ^ 52) * (((1863692083643938784928724 / 10 ^ 24 : ℝ) ^ 4 - ((1863692083643938784928724 / 10 ^ 24 : ℝ) ^ 4)⁻¹) / 2) *
        (y - y ^ 3 / 6 + y ^ 5 / 120 - y ^ 7 / 5040 + y ^ 9 / 362880 - y ^ 11 / 39916800 - y ^ 12 * (13 / 5748019200)) := by
    rw [hy]; norm_num
  rw [div_le_iff₀ sp]
  calc Real.cos u ≤ Real.cos y := hc
    _ ≤ _ := sub_le_iff_le_add'.1 tc
    _ ≤ _ := num
    _ ≤ (1 - 1 / 2 ^ 52) * (((1863692083643938784928724 / 10 ^ 24 : ℝ) ^ 4 - ((1863692083643938784928724 / 10 ^ 24 : ℝ) ^ 4)⁻¹) / 2) *
          Real.sin y := mul_le_mul_of_nonneg_left (by linarith) (by norm_num)
    _ ≤ (1 - 1 / 2 ^ 52) * (((1863692083643938784928724 / 10 ^ 24 : ℝ) ^ 4 - ((1863692083643938784928724 / 10 ^ 24 : ℝ) ^ 4)⁻¹) / 2) *
          Real.sin u := mul_le_mul_of_nonneg_left hs (by norm_num)
    _ ≤ _ := mul_le_mul_of_nonneg_right (mul_le_mul_of_nonneg_left sh (by norm_num)) sp.le

/-- The logarithm at the angle of the lookup. -/
theorem fail_log : Real.exp (249023804575875895105 / 10 ^ 20) ≤ Real.tan (1675446197426691 / 2 ^ 50) := by
  have q1 := Real.pi_gt_d20
  have q2 := Real.pi_lt_d20
  obtain ⟨u, hu⟩ : ∃ u : ℝ, u = Real.pi / 2 - 1675446197426691 / 2 ^ 50 := ⟨_, rfl⟩
  have e : (1675446197426691 / 2 ^ 50 : ℝ) = Real.pi / 2 - u := by rw [hu]; ring
  rw [e, Real.tan_eq_sin_div_cos, Real.sin_pi_div_two_sub, Real.cos_pi_div_two_sub]
  set y : ℝ := 3.14159265358979323847 / 2 - 1675446197426691 / 2 ^ 50 with hy
  have xy : u ≤ y := by rw [hy, hu]; linarith
  have u0 : 0 < u := by rw [hu]; norm_num at q1 ⊢; linarith
  have y1 : y ≤ 1 := by rw [hy]; norm_num
  have y0 : 0 ≤ y := by linarith
  have pi3 := Real.pi_gt_three
  have hs : Real.sin u ≤ Real.sin y := Real.sin_le_sin_of_le_of_le_pi_div_two (by linarith) (by linarith) xy
  have hc : Real.cos y ≤ Real.cos u := Real.cos_le_cos_of_nonneg_of_le_pi u0.le (by linarith) xy
  have t := taylor12 (x := y) (by rw [abs_of_nonneg y0]; exact y1)
  rw [abs_of_nonneg y0] at t
  have tc := (abs_le.1 t.1).1
  have ts := (abs_le.1 t.2).2
  have sp : 0 < Real.sin u := Real.sin_pos_of_pos_of_lt_pi u0 (by linarith)
  have num : (1863692083643939093116318 / 10 ^ 24 : ℝ) ^ 4 *
      (y - y ^ 3 / 6 + y ^ 5 / 120 - y ^ 7 / 5040 + y ^ 9 / 362880 - y ^ 11 / 39916800 + y ^ 12 * (13 / 5748019200)) <
      1 - y ^ 2 / 2 + y ^ 4 / 24 - y ^ 6 / 720 + y ^ 8 / 40320 - y ^ 10 / 3628800 - y ^ 12 * (13 / 5748019200) := by
    rw [hy]; norm_num
  rw [le_div_iff₀ sp]
  calc Real.exp (249023804575875895105 / 10 ^ 20) * Real.sin u ≤ (1863692083643939093116318 / 10 ^ 24) ^ 4 * Real.sin y :=
        mul_le_mul fail_exp_up hs sp.le (by norm_num)
    _ ≤ _ := mul_le_mul_of_nonneg_left (sub_le_iff_le_add'.1 ts) (by norm_num)
    _ ≤ _ := num.le
    _ ≤ Real.cos y := by linarith
    _ ≤ _ := hc

/-- The angle that `atan` returns is not below a certain bound. -/
theorem fail_atan {H : Hyp} (hH : H.Accurate) : (14053939850511477684100 / 10 ^ 22 : ℚ) ≤ H.atan (H.sinh (43808730995871 / 2 ^ 44)) := by
  have s := (abs_le.1 (hH.sinh_err (43808730995871 / 2 ^ 44))).1
  have a := (abs_le.1 (hH.atan_err (H.sinh (43808730995871 / 2 ^ 44)))).1
  have ft := fail_tan
  generalize H.sinh (43808730995871 / 2 ^ 44) = w at *
  have cx : (((43808730995871 / 2 ^ 44 : ℚ)) : ℝ) = 43808730995871 / 2 ^ 44 := by push_cast; ring
  rw [cx, abs_of_pos (Real.sinh_pos_iff.2 (by norm_num))] at s
  have hw : Real.tan (14053939850511480804800 / 10 ^ 22) ≤ (w : ℝ) := by linarith
  have pi3 := Real.pi_gt_three
  have hb : (14053939850511480804800 / 10 ^ 22 : ℝ) ≤ Real.arctan w := by
    have := Real.arctan_strictMono.monotone hw
    rwa [Real.arctan_tan (by norm_num; linarith) (by norm_num; linarith)] at this
  rw [abs_of_nonneg (by norm_num at hb; linarith)] at a
  have : ((14053939850511477684100 / 10 ^ 22 : ℚ) : ℝ) ≤ H.atan w := by
    push_cast
    norm_num at a hb ⊢
    linarith
  exact_mod_cast this

/-- **C184 (lookup, violated).** Looking up the north-western corner of a tile may give the tile to the north, with every accurate
library: for row 54351 at zoom level 19 the code returns row 54350. -/
theorem C184_violated_lookup {H : Hyp} (hH : H.Accurate) {T : Lib} (hT : T.Accurate) :
    tileRowF double T piD (nwLatF double H piD 19 54351) 19 = .ok 54350 := by
  have rng := corner_range double hH piD_like (z := 19) (by norm_num) (y := 54351) (by norm_num) (by norm_num)
  have both := C184_lookup_partial double hH hT piD_like (z := 19) (by norm_num) (y := 54351) (by norm_num) (by norm_num)
  have arg : double.fl (piD * double.fl (1 - double.fl (2 * ((54351 : ℤ) : ℚ) / 2 ^ 19))) = 43808730995871 / 2 ^ 44 := by decide +kernel
  have lat : double.fl (double.fl ((14053939850511477684100 / 10 ^ 22) * 180) / piD) ≤ nwLatF double H piD 19 54351 := by
    unfold nwLatF
    rw [arg]
    have := fail_atan hH
    exact double.mono (div_le_div_of_nonneg_right (double.mono (mul_le_mul_of_nonneg_right this (by norm_num))) (by unfold piD; norm_num))
  generalize nwLatF double H piD 19 54351 = q at *
  have ang : (1675446197426691 / 2 ^ 50 : ℚ) ≤ angleF double piD q := by
    have h0 : (1675446197426691 / 2 ^ 50 : ℚ) ≤
        angleF double piD (double.fl (double.fl ((14053939850511477684100 / 10 ^ 22) * 180) / piD)) := by decide +kernel
    refine h0.trans ?_
    unfold angleF
    apply double.mono
    have m := mul_le_mul_of_nonneg_right lat (show (0 : ℚ) ≤ piD by unfold piD; norm_num)
    have := double.mono (div_le_div_of_nonneg_right (double.mono m) (show (0 : ℚ) ≤ 360 by norm_num))
    linarith
  obtain ⟨tposq, -⟩ := log_err double hT piD_like rng
  have hrow := row_ok double hT piD_like rng 19
  have a2 := abs_le.1 (angle_err double piD_like rng)
  have m2 := (mid_angle rng).2
  have terr := (abs_le.1 (hT.tan_err (angleF double piD q))).1
  generalize angleF double piD q = g at *
  have g1 : (1675446197426691 / 2 ^ 50 : ℝ) ≤ g := by
    have : ((1675446197426691 / 2 ^ 50 : ℚ) : ℝ) ≤ g := by exact_mod_cast ang
    push_cast at this
    exact this
  have g2 : (g : ℝ) < Real.pi / 2 := by norm_num at a2 m2; linarith [a2.2]
  have tm : Real.tan (1675446197426691 / 2 ^ 50) ≤ Real.tan g := by
    rcases g1.lt_or_eq with h | h
    · exact (Real.tan_lt_tan_of_lt_of_lt_pi_div_two (by linarith [Real.pi_pos, (by norm_num : (0 : ℝ) < 1675446197426691 / 2 ^ 50)]) g2 h).le
    · rw [h]
  have ex := fail_log.trans tm
  have tp : 0 < Real.tan g := (Real.exp_pos _).trans_le ex
  rw [abs_of_pos tp] at terr
  generalize T.tan g = t at *
  have tpos : (0 : ℝ) < t := by exact_mod_cast tposq
  have tge : Real.exp (249023804575875895105 / 10 ^ 20) * (1 - 1 / 2 ^ 52) ≤ t := by
    refine (mul_le_mul_of_nonneg_right ex (by norm_num)).trans ?_
    linarith
  have lg : 249023804575875895105 / 10 ^ 20 - 1 / (2 ^ 52 - 1) ≤ Real.log t := by
    have h1 := Real.log_le_log (mul_pos (Real.exp_pos _) (by norm_num)) tge
    rw [Real.log_mul (Real.exp_pos _).ne' (by norm_num), Real.log_exp] at h1
    have h2 := Real.one_sub_inv_le_log_of_pos (x := 1 - 1 / 2 ^ 52) (by norm_num)
    norm_num at h1 h2 ⊢
    linarith
  have le := (abs_le.1 (hT.log_err t tposq)).1
  rw [abs_of_nonneg (by norm_num at lg; linarith)] at le
  have L : (249023804575875817506 / 10 ^ 20 : ℚ) ≤ T.log t := by
    have : ((249023804575875817506 / 10 ^ 20 : ℚ) : ℝ) ≤ T.log t := by
      push_cast
      norm_num at le lg ⊢
      linarith
    exact_mod_cast this
  have low : ⌊double.fl (double.fl (double.fl (128 / piD) * 2 ^ 19) * double.fl (piD - T.log t)) / 256⌋ < 54351 := by
    rw [Int.floor_lt]
    have c0 : 0 ≤ double.fl (double.fl (128 / piD) * 2 ^ 19) := by decide +kernel
    have w : double.fl (piD - T.log t) ≤ double.fl (piD - 249023804575875817506 / 10 ^ 20) := double.mono (by linarith)
    have v := double.mono (mul_le_mul_of_nonneg_left w c0)
    have c : double.fl (double.fl (double.fl (128 / piD) * 2 ^ 19) * double.fl (piD - 249023804575875817506 / 10 ^ 20)) < 256 * 54351 := by
      decide +kernel
    push_cast
    linarith
  rcases both with h | h
  · rw [hrow] at h
    have := Except.ok.inj h
    omega
  · rw [h]; rfl

example : tileRowF double someLib piD (nwLatF double someHyp piD 19 54351) 19 = .ok 54350 :=
  C184_violated_lookup someHyp_accurate someLib_accurate

end Karta.Float.TileCorner
