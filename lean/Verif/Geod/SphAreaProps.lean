import Verif.Geod.InverseProps
import Mathlib.MeasureTheory.Integral.IntervalIntegral.FundThmCalculus
import Mathlib.Analysis.SpecialFunctions.Trigonometric.ArctanDeriv
import Mathlib.Analysis.SpecialFunctions.Sqrt

/-!
# Areas of polygons on a sphere: properties

C96.
-/

namespace Karta.Geod.Geodesic
open Karta Karta.Geod Karta.Geod.Sphere

/-! ### Specification -/

/-- Spec: the tangent of the latitude at longitude `l` on the great circle through `(l1, f1)` and `(l2, f2)` (radians). -/
noncomputable def gcTan (l1 f1 l2 f2 l : ℝ) : ℝ :=
  (Real.tan f1 * Real.sin (l2 - l) + Real.tan f2 * Real.sin (l - l1)) / Real.sin (l2 - l1)

/-- Spec: the area on the unit sphere between the equator and the great circle from `(l1, f1)` to `(l2, f2)`; negative south of
the equator, and negative for a side that leads west. -/
noncomputable def sideArea (l1 f1 l2 f2 : ℝ) : ℝ := ∫ l in l1..l2, Real.sin (Real.arctan (gcTan l1 f1 l2 f2 l))

/-- The specification is that of the great circle: it passes through both positions, and each of its positions is in the plane
of the two and the centre. -/
theorem gcTan_ok (l1 f1 l2 f2 l : ℝ) (h1 : 0 < Real.cos f1) (h2 : 0 < Real.cos f2) (hs : Real.sin (l2 - l1) ≠ 0) :
    gcTan l1 f1 l2 f2 l1 = Real.tan f1 ∧ gcTan l1 f1 l2 f2 l2 = Real.tan f2 ∧
    (cross (position l1 f1) (position l2 f2)).dot (position l (Real.arctan (gcTan l1 f1 l2 f2 l))) = 0 := by
  refine ⟨?_, ?_, ?_⟩
  · unfold gcTan; rw [sub_self, Real.sin_zero, mul_zero, add_zero]; field_simp
  · unfold gcTan; rw [sub_self, Real.sin_zero, mul_zero, zero_add]; field_simp
  · have hc : Real.cos (Real.arctan (gcTan l1 f1 l2 f2 l)) ≠ 0 := (Real.cos_arctan_pos _).ne'
    have ht : Real.sin (Real.arctan (gcTan l1 f1 l2 f2 l)) =
        gcTan l1 f1 l2 f2 l * Real.cos (Real.arctan (gcTan l1 f1 l2 f2 l)) := by
      have := Real.tan_arctan (gcTan l1 f1 l2 f2 l)
      rw [Real.tan_eq_sin_div_cos, div_eq_iff hc] at this
      exact this
    have hg : Real.cos f1 * Real.cos f2 * Real.sin (l2 - l1) * gcTan l1 f1 l2 f2 l =
        Real.sin f1 * Real.cos f2 * Real.sin (l2 - l) + Real.cos f1 * Real.sin f2 * Real.sin (l - l1) := by
      unfold gcTan
      rw [Real.tan_eq_sin_div_cos, Real.tan_eq_sin_div_cos]
      field_simp
    simp only [V3.dot, cross, position]
    rw [ht]
    generalize Real.cos (Real.arctan (gcTan l1 f1 l2 f2 l)) = C at *
    rw [Real.sin_sub, Real.sin_sub, Real.sin_sub] at hg
    linear_combination C * hg

/-! ### The azimuth along a great circle -/

/-- `atan2` in the upper half plane. -/
theorem atan2_upper {h x : ℝ} (hh : 0 < h) : atan2 h x = Real.pi / 2 - Real.arctan (x / h) := by
  have hpi := Real.pi_pos
  set t := Real.arctan (x / h)
  have t1 := Real.neg_pi_div_two_lt_arctan (x / h)
  have t2 := Real.arctan_lt_pi_div_two (x / h)
  have hc : 0 < Real.cos t := Real.cos_arctan_pos _
  have htan : Real.sin t = x / h * Real.cos t := by
    have := Real.tan_arctan (x / h)
    rw [Real.tan_eq_sin_div_cos, div_eq_iff hc.ne'] at this
    exact this
  have e1 : h = h / Real.cos t * Real.sin (Real.pi / 2 - t) := by
    rw [Real.sin_pi_div_two_sub]; field_simp
  have e2 : x = h / Real.cos t * Real.cos (Real.pi / 2 - t) := by
    rw [Real.cos_pi_div_two_sub, htan]; field_simp
  have := atan2_polar (r := h / Real.cos t) (θ := Real.pi / 2 - t) (by positivity) (by linarith) (by linarith)
  rw [← e1, ← e2] at this
  exact this

/-- Mirror image. -/
theorem atan2_upper_neg {h x : ℝ} (hh : 0 < h) : atan2 h (-x) = Real.pi - atan2 h x := by
  rw [atan2_upper hh, atan2_upper hh, neg_div, Real.arctan_neg]; ring

/-- Only the ratio matters. -/
theorem atan2_upper_eq {h x h' x' : ℝ} (hh : 0 < h) (hh' : 0 < h') (e : x / h = x' / h') : atan2 h x = atan2 h' x' := by
  rw [atan2_upper hh, atan2_upper hh', e]

/-- Spec of the slope of `gcTan`. -/
noncomputable def gcTan' (l1 f1 l2 f2 l : ℝ) : ℝ :=
  (-(Real.tan f1 * Real.cos (l2 - l)) + Real.tan f2 * Real.cos (l - l1)) / Real.sin (l2 - l1)

theorem gcTan_deriv (l1 f1 l2 f2 l : ℝ) : HasDerivAt (gcTan l1 f1 l2 f2) (gcTan' l1 f1 l2 f2 l) l := by
  unfold gcTan gcTan'
  have h1 : HasDerivAt (fun l => Real.sin (l2 - l)) (-Real.cos (l2 - l)) l := by
    exact ((Real.hasDerivAt_sin (l2 - l)).comp l ((hasDerivAt_id l).const_sub l2)).congr_deriv (by ring)
  have h2 : HasDerivAt (fun l => Real.sin (l - l1)) (Real.cos (l - l1)) l := by
    exact ((Real.hasDerivAt_sin (l - l1)).comp l ((hasDerivAt_id l).sub_const l1)).congr_deriv (by ring)
  have h3 := ((h1.const_mul (Real.tan f1)).add (h2.const_mul (Real.tan f2))).div_const (Real.sin (l2 - l1))
  exact h3.congr_deriv (by ring)

theorem gcTan'_deriv (l1 f1 l2 f2 l : ℝ) : HasDerivAt (gcTan' l1 f1 l2 f2) (-gcTan l1 f1 l2 f2 l) l := by
  unfold gcTan gcTan'
  have h1 : HasDerivAt (fun l => Real.cos (l2 - l)) (Real.sin (l2 - l)) l := by
    exact ((Real.hasDerivAt_cos (l2 - l)).comp l ((hasDerivAt_id l).const_sub l2)).congr_deriv (by ring)
  have h2 : HasDerivAt (fun l => Real.cos (l - l1)) (-Real.sin (l - l1)) l := by
    have h := (Real.hasDerivAt_cos (l - l1)).comp l ((hasDerivAt_id l).sub_const l1)
    exact h.congr_deriv (by ring)
  have h3 := ((h1.const_mul (Real.tan f1)).neg.add (h2.const_mul (Real.tan f2))).div_const (Real.sin (l2 - l1))
  exact h3.congr_deriv (by ring)

/-- The azimuth as a function of longitude. -/
noncomputable def gcAz (l1 f1 l2 f2 l : ℝ) : ℝ :=
  Real.pi / 2 - Real.arctan (gcTan' l1 f1 l2 f2 l / Real.sqrt (1 + gcTan l1 f1 l2 f2 l ^ 2))

theorem gcAz_deriv (l1 f1 l2 f2 l : ℝ) :
    HasDerivAt (gcAz l1 f1 l2 f2) (Real.sin (Real.arctan (gcTan l1 f1 l2 f2 l))) l := by
  unfold gcAz
  have hT := gcTan_deriv l1 f1 l2 f2 l
  have hT' := gcTan'_deriv l1 f1 l2 f2 l
  have hpos : 0 < 1 + gcTan l1 f1 l2 f2 l ^ 2 := by positivity
  have hq : HasDerivAt (fun l => Real.sqrt (1 + gcTan l1 f1 l2 f2 l ^ 2))
      (gcTan l1 f1 l2 f2 l * gcTan' l1 f1 l2 f2 l / Real.sqrt (1 + gcTan l1 f1 l2 f2 l ^ 2)) l := by
    have := ((hT.pow 2).const_add 1).sqrt hpos.ne'
    refine this.congr_deriv ?_
    simp only [Pi.pow_apply]
    have := Real.sqrt_pos.mpr hpos
    push_cast
    field_simp
  have hs : 0 < Real.sqrt (1 + gcTan l1 f1 l2 f2 l ^ 2) := Real.sqrt_pos.mpr hpos
  have hd := ((hT'.div hq hs.ne').arctan).const_sub (Real.pi / 2)
  refine hd.congr_deriv ?_
  rw [Real.sin_arctan]
  simp only [Pi.div_apply]
  clear hd hq
  generalize gcTan l1 f1 l2 f2 l = T at *
  generalize gcTan' l1 f1 l2 f2 l = D at *
  have hss : Real.sqrt (1 + T ^ 2) ^ 2 = 1 + T ^ 2 := Real.sq_sqrt hpos.le
  generalize Real.sqrt (1 + T ^ 2) = S at *
  have hk : 0 < S ^ 2 + D ^ 2 := by positivity
  have e1 : 1 + (D / S) ^ 2 = (S ^ 2 + D ^ 2) / S ^ 2 := by field_simp
  have e2 : -T * S - D * (T * D / S) = -(T * (S ^ 2 + D ^ 2)) / S := by field_simp; ring
  rw [e1, e2]
  field_simp

/-- The area under a side is the change of azimuth along it. -/
theorem sideArea_eq (l1 f1 l2 f2 : ℝ) : sideArea l1 f1 l2 f2 = gcAz l1 f1 l2 f2 l2 - gcAz l1 f1 l2 f2 l1 := by
  unfold sideArea
  apply intervalIntegral.integral_eq_sub_of_hasDerivAt (f := gcAz l1 f1 l2 f2) (f' := fun l => Real.sin (Real.arctan (gcTan l1 f1 l2 f2 l)))
  · intro l _; exact gcAz_deriv l1 f1 l2 f2 l
  · apply Continuous.intervalIntegrable
    have hc : Continuous (gcTan l1 f1 l2 f2) := by
      unfold gcTan
      fun_prop
    fun_prop

/-! ### Closed form -/

/-- The change of azimuth along a side with longitude difference `d`. -/
noncomputable def turn (d f1 f2 : ℝ) : ℝ :=
  Real.arctan ((Real.tan f2 - Real.tan f1 * Real.cos d) / Real.sin d * Real.cos f1)
    - Real.arctan ((Real.tan f2 * Real.cos d - Real.tan f1) / Real.sin d * Real.cos f2)

theorem turn_swap (d f1 f2 : ℝ) : turn d f2 f1 = turn d f1 f2 := by
  unfold turn
  have e1 : (Real.tan f1 - Real.tan f2 * Real.cos d) / Real.sin d * Real.cos f2
    = -((Real.tan f2 * Real.cos d - Real.tan f1) / Real.sin d * Real.cos f2) := by ring
  have e2 : (Real.tan f1 * Real.cos d - Real.tan f2) / Real.sin d * Real.cos f1
    = -((Real.tan f2 - Real.tan f1 * Real.cos d) / Real.sin d * Real.cos f1) := by ring
  rw [e1, e2, Real.arctan_neg, Real.arctan_neg]
  ring

theorem turn_neg (d f1 f2 : ℝ) : turn d (-f1) (-f2) = -turn d f1 f2 := by
  unfold turn
  rw [Real.tan_neg, Real.tan_neg, Real.cos_neg, Real.cos_neg]
  have e1 : (-Real.tan f2 - -Real.tan f1 * Real.cos d) / Real.sin d * Real.cos f1
    = -((Real.tan f2 - Real.tan f1 * Real.cos d) / Real.sin d * Real.cos f1) := by ring
  have e2 : (-Real.tan f2 * Real.cos d - -Real.tan f1) / Real.sin d * Real.cos f2
    = -((Real.tan f2 * Real.cos d - Real.tan f1) / Real.sin d * Real.cos f2) := by ring
  rw [e1, e2, Real.arctan_neg, Real.arctan_neg]
  ring

theorem turn_west (d f1 f2 : ℝ) : turn (-d) f1 f2 = -turn d f1 f2 := by
  unfold turn
  rw [Real.cos_neg, Real.sin_neg]
  have e1 : (Real.tan f2 - Real.tan f1 * Real.cos d) / -Real.sin d * Real.cos f1
    = -((Real.tan f2 - Real.tan f1 * Real.cos d) / Real.sin d * Real.cos f1) := by rw [div_neg]; ring
  have e2 : (Real.tan f2 * Real.cos d - Real.tan f1) / -Real.sin d * Real.cos f2
    = -((Real.tan f2 * Real.cos d - Real.tan f1) / Real.sin d * Real.cos f2) := by rw [div_neg]; ring
  rw [e1, e2, Real.arctan_neg, Real.arctan_neg]
  ring

/-- A side between equal latitudes, north of the equator. -/
theorem turn_pos {d f : ℝ} (h0 : 0 < d) (h1 : d < Real.pi) (f0 : 0 < f) (f1 : f < Real.pi / 2) : 0 < turn d f f := by
  have sd := Real.sin_pos_of_pos_of_lt_pi h0 h1
  have cf : 0 < Real.cos f := Real.cos_pos_of_mem_Ioo ⟨by linarith, f1⟩
  have tf : 0 < Real.tan f := Real.tan_pos_of_pos_of_lt_pi_div_two f0 f1
  have cd : Real.cos d < 1 := by
    rcases (Real.cos_le_one d).lt_or_eq with h | h
    · exact h
    · have := Real.sin_sq_add_cos_sq d
      rw [h] at this; nlinarith
  unfold turn
  have e : (Real.tan f * Real.cos d - Real.tan f) / Real.sin d * Real.cos f
    = -((Real.tan f - Real.tan f * Real.cos d) / Real.sin d * Real.cos f) := by ring
  rw [e, Real.arctan_neg]
  have h : 0 < (Real.tan f - Real.tan f * Real.cos d) / Real.sin d * Real.cos f := by
    have : 0 < Real.tan f - Real.tan f * Real.cos d := by nlinarith
    positivity
  have := Real.arctan_pos.mpr h
  linarith

theorem turn_zero (d : ℝ) : turn d 0 0 = 0 := by unfold turn; simp

theorem sqrt_tan {f : ℝ} (h : 0 < Real.cos f) : Real.sqrt (1 + Real.tan f ^ 2) = 1 / Real.cos f := by
  have e := Real.sin_sq_add_cos_sq f
  have : 1 + Real.tan f ^ 2 = (1 / Real.cos f) ^ 2 := by
    rw [Real.tan_eq_sin_div_cos]; field_simp; linarith
  rw [this, Real.sqrt_sq (by positivity)]

theorem sideArea_closed {l1 f1 l2 f2 : ℝ} (h1 : 0 < Real.cos f1) (h2 : 0 < Real.cos f2) (hs : Real.sin (l2 - l1) ≠ 0) :
    sideArea l1 f1 l2 f2 = turn (l2 - l1) f1 f2 := by
  obtain ⟨t1, t2, -⟩ := gcTan_ok l1 f1 l2 f2 l1 h1 h2 hs
  rw [sideArea_eq]
  unfold gcAz
  rw [t1, t2, sqrt_tan h1, sqrt_tan h2]
  unfold gcTan' turn
  rw [sub_self, sub_self, Real.cos_zero]
  have e1 : (-(Real.tan f1 * 1) + Real.tan f2 * Real.cos (l2 - l1)) / Real.sin (l2 - l1) / (1 / Real.cos f2)
    = (Real.tan f2 * Real.cos (l2 - l1) - Real.tan f1) / Real.sin (l2 - l1) * Real.cos f2 := by field_simp; ring
  have e2 : (-(Real.tan f1 * Real.cos (l2 - l1)) + Real.tan f2 * 1) / Real.sin (l2 - l1) / (1 / Real.cos f1)
    = (Real.tan f2 - Real.tan f1 * Real.cos (l2 - l1)) / Real.sin (l2 - l1) * Real.cos f1 := by field_simp; ring
  rw [e1, e2]
  ring

theorem vincenty_turn (r lam f1 f2 : ℝ) (hl0 : 0 < lam) (hl1 : lam < Real.pi) (h1 : -(Real.pi / 2) < f1) (h1' : f1 < Real.pi / 2)
    (h2 : -(Real.pi / 2) < f2) (h2' : f2 < Real.pi / 2) :
    (solveVincenty r 0 lam f1 f2).2.1 - (solveVincenty r 0 lam f1 f2).1 = turn lam f1 f2 := by
  have c1 : 0 < Real.cos f1 := Real.cos_pos_of_mem_Ioo ⟨h1, h1'⟩
  have c2 : 0 < Real.cos f2 := Real.cos_pos_of_mem_Ioo ⟨h2, h2'⟩
  have sl := Real.sin_pos_of_pos_of_lt_pi hl0 hl1
  rw [vincenty_sphere r lam f1 f2 h1 h1' h2 h2']
  dsimp only
  rw [atan2_upper (by positivity), atan2_upper (by positivity)]
  unfold turn
  rw [Real.tan_eq_sin_div_cos, Real.tan_eq_sin_div_cos]
  have e1 : (-Real.sin f1 * Real.cos f2 + Real.cos f1 * Real.sin f2 * Real.cos lam) / (Real.cos f1 * Real.sin lam)
    = (Real.sin f2 / Real.cos f2 * Real.cos lam - Real.sin f1 / Real.cos f1) / Real.sin lam * Real.cos f2 := by
    field_simp; ring
  have e2 : (Real.cos f1 * Real.sin f2 - Real.sin f1 * Real.cos f2 * Real.cos lam) / (Real.cos f2 * Real.sin lam)
    = (Real.sin f2 / Real.cos f2 - Real.sin f1 / Real.cos f1 * Real.cos lam) / Real.sin lam * Real.cos f1 := by
    field_simp
  rw [e1, e2]
  ring

theorem radians_eq (d : ℝ) : radians d = rad d := by unfold radians rad; ring

/-- What `spherical_area` computes for a side along a meridian. -/
theorem area_meridian (r x1 y1 x2 y2 : ℝ) (hy1 : -90 < y1) (hy1' : y1 < 90) (hy2 : -90 < y2) (hy2' : y2 < 90)
    (hx : reduceDeg (x2 - x1) = 0) : sphericalArea r x1 y1 x2 y2 = 0 := by
  have hpi := Real.pi_pos
  obtain ⟨k1, k2, k3, k4, k5, k6, k7, k8⟩ := canonical_ok x1 y1 x2 y2
  have hlo : -90 < (canonical x1 y1 x2 y2).y1 := by
    rcases k8 with ⟨h, -⟩ | ⟨h, -⟩ | ⟨h, -⟩ | ⟨h, -⟩ <;> rw [h] <;> linarith
  unfold sphericalArea
  dsimp only
  set c := canonical x1 y1 x2 y2
  rw [hx, abs_zero] at k6
  rw [radians_eq, radians_eq, radians_eq, k6, show rad (0 - 0) = 0 by unfold rad; ring,
    vincenty_sphere r 0 (rad c.y1) (rad c.y2) (by unfold rad; nlinarith) (by unfold rad; nlinarith) (by unfold rad; nlinarith)
      (by unfold rad; nlinarith)]
  simp only [Real.sin_zero, Real.cos_zero, mul_zero, mul_one]
  rw [show -Real.sin (rad c.y1) * Real.cos (rad c.y2) + Real.cos (rad c.y1) * Real.sin (rad c.y2)
    = Real.cos (rad c.y1) * Real.sin (rad c.y2) - Real.sin (rad c.y1) * Real.cos (rad c.y2) by ring]
  ring

/-- What `spherical_area` computes for other sides. -/
theorem area_turn (r x1 y1 x2 y2 : ℝ) (hy1 : -90 < y1) (hy1' : y1 < 90) (hy2 : -90 < y2) (hy2' : y2 < 90)
    (hx0 : reduceDeg (x2 - x1) ≠ 0) (hx1 : reduceDeg (x2 - x1) ≠ -180) :
    sphericalArea r x1 y1 x2 y2 = (if x2 < x1 then -1 else 1) * r ^ 2 *
      turn (rad |reduceDeg (x2 - x1)|) (rad (canonical x1 y1 x2 y2).y1) (rad (canonical x1 y1 x2 y2).y2) := by
  have hpi := Real.pi_pos
  have hm := reduce_mem (x2 - x1)
  obtain ⟨k1, k2, k3, k4, k5, k6, k7, k8⟩ := canonical_ok x1 y1 x2 y2
  have hlo : -90 < (canonical x1 y1 x2 y2).y1 := by
    rcases k8 with ⟨h, -⟩ | ⟨h, -⟩ | ⟨h, -⟩ | ⟨h, -⟩ <;> rw [h] <;> linarith
  have hp : 0 < |reduceDeg (x2 - x1)| := abs_pos.mpr hx0
  have hl : |reduceDeg (x2 - x1)| < 180 := by
    rw [abs_lt]; exact ⟨lt_of_le_of_ne hm.1 (Ne.symm hx1), hm.2⟩
  unfold sphericalArea
  dsimp only
  set c := canonical x1 y1 x2 y2
  rw [radians_eq, radians_eq, radians_eq, sub_zero, k6,
    vincenty_turn r _ (rad c.y1) (rad c.y2) (by unfold rad; positivity) (by unfold rad; nlinarith) (by unfold rad; nlinarith)
      (by unfold rad; nlinarith) (by unfold rad; nlinarith) (by unfold rad; nlinarith)]

theorem reduce_small {d : ℝ} (h1 : -180 ≤ d) (h2 : d < 180) : reduceDeg d = d := by
  unfold reduceDeg
  rw [pyModR_self (by linarith) (by linarith)]; ring

theorem sin_rad_ne {d : ℝ} (h1 : -180 < d) (h2 : d < 180) (h0 : d ≠ 0) : Real.sin (rad d) ≠ 0 := by
  have hpi := Real.pi_pos
  rcases lt_or_gt_of_ne h0 with h | h
  · exact (Real.sin_neg_of_neg_of_neg_pi_lt (by unfold rad; nlinarith) (by unfold rad; nlinarith)).ne
  · exact (Real.sin_pos_of_pos_of_lt_pi (by unfold rad; positivity) (by unfold rad; nlinarith)).ne'

/-- A side within a hemisphere: the sign depends on the hemisphere only. -/
theorem area_side (r x1 y1 x2 y2 : ℝ) (hy1 : -90 < y1) (hy1' : y1 < 90) (hy2 : -90 < y2) (hy2' : y2 < 90)
    (hx : |x2 - x1| < 180) :
    (0 ≤ y1 → 0 ≤ y2 → sphericalArea r x1 y1 x2 y2 = -(r ^ 2 * sideArea (rad x1) (rad y1) (rad x2) (rad y2))) ∧
    (y1 ≤ 0 → y2 ≤ 0 → sphericalArea r x1 y1 x2 y2 = r ^ 2 * sideArea (rad x1) (rad y1) (rad x2) (rad y2)) := by
  have hpi := Real.pi_pos
  have hxx := abs_lt.mp hx
  have hred : reduceDeg (x2 - x1) = x2 - x1 := reduce_small hxx.1.le hxx.2
  by_cases h0 : x2 - x1 = 0
  · have e : x2 = x1 := by linarith
    have z : sideArea (rad x1) (rad y1) (rad x2) (rad y2) = 0 := by
      unfold sideArea; rw [e]; exact intervalIntegral.integral_same
    rw [area_meridian r x1 y1 x2 y2 hy1 hy1' hy2 hy2' (by rw [hred, h0]), z]
    simp
  · have c1 := cos_rad_pos hy1 hy1'
    have c2 := cos_rad_pos hy2 hy2'
    have hd : rad x2 - rad x1 = rad (x2 - x1) := by unfold rad; ring
    rw [area_turn r x1 y1 x2 y2 hy1 hy1' hy2 hy2' (by rw [hred]; exact h0) (by rw [hred]; linarith),
      sideArea_closed c1 c2 (by rw [hd]; exact sin_rad_ne hxx.1 hxx.2 h0), hd, hred]
    have hsgn : ∀ f1 f2, (if x2 < x1 then (-1 : ℝ) else 1) * r ^ 2 * turn (rad |x2 - x1|) f1 f2 = r ^ 2 * turn (rad (x2 - x1)) f1 f2 := by
      intro f1 f2
      by_cases hlt : x2 < x1
      · rw [if_pos hlt, abs_of_neg (by linarith), rad_neg, turn_west]; ring
      · rw [if_neg hlt, abs_of_nonneg (by linarith)]; ring
    rw [hsgn]
    obtain ⟨k1, k2, k3, -, -, -, -, k8⟩ := canonical_ok x1 y1 x2 y2
    constructor
    · intro p1 p2
      have : (canonical x1 y1 x2 y2).y1 = -y1 ∧ (canonical x1 y1 x2 y2).y2 = -y2 ∨
          (canonical x1 y1 x2 y2).y1 = -y2 ∧ (canonical x1 y1 x2 y2).y2 = -y1 := by
        rcases k8 with ⟨u, v⟩ | ⟨u, v⟩ | ⟨u, v⟩ | ⟨u, v⟩
        · left; constructor <;> linarith
        · exact Or.inl ⟨u, v⟩
        · left; constructor <;> linarith
        · exact Or.inr ⟨u, v⟩
      rcases this with ⟨u, v⟩ | ⟨u, v⟩
      · rw [u, v, rad_neg, rad_neg, turn_neg]; ring
      · rw [u, v, rad_neg, rad_neg, turn_neg, turn_swap]; ring
    · intro p1 p2
      have : (canonical x1 y1 x2 y2).y1 = y1 ∧ (canonical x1 y1 x2 y2).y2 = y2 ∨
          (canonical x1 y1 x2 y2).y1 = y2 ∧ (canonical x1 y1 x2 y2).y2 = y1 := by
        rcases k8 with ⟨u, v⟩ | ⟨u, v⟩ | ⟨u, v⟩ | ⟨u, v⟩
        · exact Or.inl ⟨u, v⟩
        · left; constructor <;> linarith
        · exact Or.inr ⟨u, v⟩
        · left; constructor <;> linarith
      rcases this with ⟨u, v⟩ | ⟨u, v⟩
      · rw [u, v]
      · rw [u, v, turn_swap]

/-! ### C96: areas of polygons -/

/-- Spec: the sum of the areas under the sides of a path (vertices in degrees). -/
noncomputable def pathArea : List (ℝ × ℝ) → ℝ
  | p :: q :: r => sideArea (rad p.1) (rad p.2) (rad q.1) (rad q.2) + pathArea (q :: r)
  | _ => 0

/-- Spec: the way round a ring and back to its start. -/
def roundTrip (l : List (ℝ × ℝ)) : List (ℝ × ℝ) := l ++ l.head?.toList

mutual
/-- Spec: the area of a polygon on the unit sphere: the area that the ring encloses, less the areas of the sub-polygons. -/
noncomputable def trueArea : Poly → ℝ
  | .mk ring subs => |pathArea (roundTrip ring)| - trueAreas subs
/-- Spec: the sum of the areas. -/
noncomputable def trueAreas : List Poly → ℝ
  | [] => 0
  | p :: ps => trueArea p + trueAreas ps
end

/-- The rings to which the theorem applies: on one hemisphere, off the poles, and with sides of less than 180 degrees of longitude
in the numbers given (so that none crosses the date line). -/
structure RingOK (l : List (ℝ × ℝ)) : Prop where
  hemi : (∀ p ∈ l, 0 ≤ p.2 ∧ p.2 < 90) ∨ (∀ p ∈ l, -90 < p.2 ∧ p.2 ≤ 0)
  short : (roundTrip l).IsChain fun p q => |q.1 - p.1| < 180

/-- All rings of a polygon satisfy `RingOK`. -/
inductive PolyOK : Poly → Prop
  | mk {ring subs} : RingOK ring → (∀ s ∈ subs, PolyOK s) → PolyOK (.mk ring subs)

theorem pathArea_eq (f : (ℝ × ℝ) × (ℝ × ℝ) → ℝ)
    (hf : ∀ p q, f (p, q) = sideArea (rad p.1) (rad p.2) (rad q.1) (rad q.2)) : ∀ l : List (ℝ × ℝ),
    pathArea l = ((l.zip l.tail).map f).sum
  | [] => rfl
  | [_] => rfl
  | p :: q :: r => by
    rw [pathArea, pathArea_eq f hf (q :: r)]
    simp [hf]

/-- The segments are the sides of the way round. -/
theorem ringSegs_perm (l : List (ℝ × ℝ)) : (ringSegs l).Perm ((roundTrip l).zip (roundTrip l).tail) := by
  cases l with
  | nil => simp [ringSegs, roundTrip]
  | cons a t =>
    obtain ⟨z, hz⟩ : ∃ z, (a :: t).getLast? = some z := ⟨_, List.getLast?_eq_getLast_of_ne_nil (by simp)⟩
    have h1 : ringSegs (a :: t) = (z, a) :: (a :: t).zip t := by
      unfold ringSegs
      rw [hz]
      simp
    have h2 : (roundTrip (a :: t)).zip (roundTrip (a :: t)).tail = (a :: t).zip t ++ [(z, a)] := by
      have key : ∀ (l : List (ℝ × ℝ)) (x z b : ℝ × ℝ), (x :: l).getLast? = some z →
          (x :: (l ++ [b])).zip (l ++ [b]) = (x :: l).zip l ++ [(z, b)] := by
        intro l
        induction l with
        | nil => intro x z b h; simp at h; simp [h]
        | cons y r ih =>
          intro x z b h
          rw [List.getLast?_cons_cons] at h
          have := ih y z b h
          simp only [List.cons_append, List.zip_cons_cons, List.cons_append]
          rw [this]
      show (a :: (t ++ [a])).zip (t ++ [a]) = _
      exact key t a z a hz
    rw [h1, h2]
    exact (List.perm_append_singleton _ _).symm

theorem mem_zip_tail {l : List (ℝ × ℝ)} {p q : ℝ × ℝ} {R : ℝ × ℝ → ℝ × ℝ → Prop} (hc : l.IsChain R) (h : (p, q) ∈ l.zip l.tail) :
    p ∈ l ∧ q ∈ l ∧ R p q := by
  induction l with
  | nil => simp at h
  | cons a t ih =>
    cases t with
    | nil => simp at h
    | cons b r =>
      simp only [List.tail_cons, List.zip_cons_cons, List.mem_cons, Prod.mk.injEq] at h
      rw [List.isChain_cons_cons] at hc
      rcases h with ⟨rfl, rfl⟩ | h
      · exact ⟨by simp, by simp, hc.1⟩
      · obtain ⟨h1, h2, h3⟩ := ih hc.2 h
        exact ⟨List.mem_cons_of_mem _ h1, List.mem_cons_of_mem _ h2, h3⟩

theorem mem_roundTrip {l : List (ℝ × ℝ)} {p : ℝ × ℝ} (h : p ∈ roundTrip l) : p ∈ l := by
  unfold roundTrip at h
  cases l with
  | nil => simp at h
  | cons a t =>
    simp only [List.head?_cons, Option.toList_some, List.mem_append, List.mem_singleton] at h
    rcases h with h | rfl
    · exact h
    · simp

theorem ringArea_ok (r : ℝ) (l : List (ℝ × ℝ)) (h : RingOK l) : |ringArea r l| = r ^ 2 * |pathArea (roundTrip l)| := by
  have hmem : ∀ s ∈ ringSegs l, s.1 ∈ l ∧ s.2 ∈ l ∧ |s.2.1 - s.1.1| < 180 := by
    intro s hs
    have := mem_zip_tail h.short ((ringSegs_perm l).mem_iff.mp hs)
    exact ⟨mem_roundTrip this.1, mem_roundTrip this.2.1, this.2.2⟩
  have hpath : pathArea (roundTrip l) = ((ringSegs l).map fun s => sideArea (rad s.1.1) (rad s.1.2) (rad s.2.1) (rad s.2.2)).sum := by
    rw [pathArea_eq (fun s => sideArea (rad s.1.1) (rad s.1.2) (rad s.2.1) (rad s.2.2)) (fun _ _ => rfl)]
    exact ((ringSegs_perm l).map _).sum_eq.symm
  have hsum : ∀ (k : ℝ) (L : List ((ℝ × ℝ) × (ℝ × ℝ))),
      (∀ s ∈ L, sphericalArea r s.1.1 s.1.2 s.2.1 s.2.2 = k * sideArea (rad s.1.1) (rad s.1.2) (rad s.2.1) (rad s.2.2)) →
      (L.map fun s => sphericalArea r s.1.1 s.1.2 s.2.1 s.2.2).sum
        = k * (L.map fun s => sideArea (rad s.1.1) (rad s.1.2) (rad s.2.1) (rad s.2.2)).sum := by
    intro k L
    induction L with
    | nil => intro _; simp
    | cons s L ih =>
      intro hL
      simp only [List.map_cons, List.sum_cons]
      rw [hL s (by simp), ih (fun t ht => hL t (by simp [ht]))]
      ring
  unfold ringArea
  rcases h.hemi with hn | hs
  · rw [hsum (-(r ^ 2)) _ (by
      intro s hs
      obtain ⟨m1, m2, m3⟩ := hmem s hs
      have a1 := hn _ m1
      have a2 := hn _ m2
      rw [(area_side r s.1.1 s.1.2 s.2.1 s.2.2 (by linarith [a1.1]) a1.2 (by linarith [a2.1]) a2.2 m3).1 a1.1 a2.1]
      ring), ← hpath, abs_mul, abs_neg, abs_of_nonneg (sq_nonneg r)]
  · rw [hsum (r ^ 2) _ (by
      intro s hs'
      obtain ⟨m1, m2, m3⟩ := hmem s hs'
      have a1 := hs _ m1
      have a2 := hs _ m2
      rw [(area_side r s.1.1 s.1.2 s.2.1 s.2.2 a1.1 (by linarith [a1.2]) a2.1 (by linarith [a2.2]) m3).2 a1.2 a2.2]),
      ← hpath, abs_mul, abs_of_nonneg (sq_nonneg r)]

mutual
/-- C96, partial.  On a sphere, the area of a polygon whose rings each stay on one side of the equator and do not cross the date
line is the square of the radius times the area on the unit sphere: for each ring the sum of the areas between its sides, which
are great circles, and the equator; the areas of sub-polygons are subtracted. -/
theorem C96_area_partial (r : ℝ) (p : Poly) (h : PolyOK p) : polyArea r p = r ^ 2 * trueArea p := by
  cases p with
  | mk ring subs =>
    cases h with
    | mk hr hs =>
      rw [polyArea, trueArea, ringArea_ok r ring hr, subsArea_ok r subs hs]
      ring
/-- The same for a list. -/
theorem subsArea_ok (r : ℝ) (ps : List Poly) (h : ∀ s ∈ ps, PolyOK s) : subsArea r ps = r ^ 2 * trueAreas ps := by
  cases ps with
  | nil => simp [subsArea, trueAreas]
  | cons p ps =>
    rw [subsArea, trueAreas, C96_area_partial r p (h p (by simp)), subsArea_ok r ps (fun s hs => h s (by simp [hs]))]
    ring
end

/-- A quadrangle between the meridians 0 and 20 and the parallels 0 and 30 with a hole. -/
example : PolyOK (.mk [(0, 0), (20, 0), (20, 30), (0, 30)] [.mk [(5, 5), (5, 10), (10, 10), (10, 5)] []]) := by
  refine .mk ⟨Or.inl ?_, ?_⟩ ?_
  · intro p hp
    simp only [List.mem_cons, List.not_mem_nil, or_false] at hp
    rcases hp with rfl | rfl | rfl | rfl <;> norm_num
  · simp [roundTrip, List.isChain_cons_cons, abs_lt]; norm_num
  · intro s hs
    simp only [List.mem_cons, List.not_mem_nil, or_false] at hs
    subst hs
    refine .mk ⟨Or.inl ?_, ?_⟩ ?_
    · intro p hp
      simp only [List.mem_cons, List.not_mem_nil, or_false] at hp
      rcases hp with rfl | rfl | rfl | rfl <;> norm_num
    · simp [roundTrip, List.isChain_cons_cons, abs_lt]; norm_num
    · intro s hs; simp at hs

theorem sideArea_meridian (l f1 f2 : ℝ) : sideArea l f1 l f2 = 0 := intervalIntegral.integral_same

theorem sideArea_rad {x1 y1 x2 y2 : ℝ} (hy1 : -90 < y1) (hy1' : y1 < 90) (hy2 : -90 < y2) (hy2' : y2 < 90)
    (h1 : -180 < x2 - x1) (h2 : x2 - x1 < 180) (h0 : x2 - x1 ≠ 0) :
    sideArea (rad x1) (rad y1) (rad x2) (rad y2) = turn (rad (x2 - x1)) (rad y1) (rad y2) := by
  have hd : rad x2 - rad x1 = rad (x2 - x1) := by unfold rad; ring
  rw [sideArea_closed (cos_rad_pos hy1 hy1') (cos_rad_pos hy2 hy2') (by rw [hd]; exact sin_rad_ne h1 h2 h0), hd]

theorem turn_rad_pos {d y : ℝ} (h0 : 0 < d) (h1 : d < 180) (y0 : 0 < y) (y1 : y < 90) : 0 < turn (rad d) (rad y) (rad y) := by
  have hpi := Real.pi_pos
  exact turn_pos (by unfold rad; positivity) (by unfold rad; nlinarith) (by unfold rad; positivity) (by unfold rad; nlinarith)

/-- C96 is false for rings that cross the equator: a quadrangle that is symmetric about the equator has area 0. -/
theorem C96_violated_equator (r d y : ℝ) (hr : 0 < r) (d0 : 0 < d) (d1 : d < 180) (y0 : 0 < y) (y1 : y < 90) :
    polyArea r (.mk [(0, -y), (d, -y), (d, y), (0, y)] []) = 0 ∧
      0 < r ^ 2 * trueArea (.mk [(0, -y), (d, -y), (d, y), (0, y)] []) := by
  have a1 : sphericalArea r 0 y 0 (-y) = 0 := area_meridian r _ _ _ _ (by linarith) y1 (by linarith) (by linarith) (by rw [reduce_small] <;> norm_num)
  have a3 : sphericalArea r d (-y) d y = 0 := area_meridian r _ _ _ _ (by linarith) (by linarith) (by linarith) y1 (by rw [sub_self, reduce_small] <;> norm_num)
  have a2 := (area_side r 0 (-y) d (-y) (by linarith) (by linarith) (by linarith) (by linarith) (by rw [sub_zero, abs_of_pos d0]; exact d1)).2
    (by linarith) (by linarith)
  have a4 := (area_side r d y 0 y (by linarith) (by linarith) (by linarith) (by linarith) (by rw [zero_sub, abs_neg, abs_of_pos d0]; exact d1)).1
    (by linarith) (by linarith)
  have s2 : sideArea (rad 0) (rad (-y)) (rad d) (rad (-y)) = -turn (rad d) (rad y) (rad y) := by
    rw [sideArea_rad (by linarith) (by linarith) (by linarith) (by linarith) (by linarith) (by linarith) (by linarith), sub_zero, rad_neg, turn_neg]
  have s4 : sideArea (rad d) (rad y) (rad 0) (rad y) = -turn (rad d) (rad y) (rad y) := by
    rw [sideArea_rad (by linarith) (by linarith) (by linarith) (by linarith) (by linarith) (by linarith) (by linarith), zero_sub, rad_neg, turn_west]
  have hp := turn_rad_pos d0 d1 y0 y1
  constructor
  · rw [polyArea, subsArea]
    simp only [ringArea, ringSegs, List.getLast?_cons_cons, List.getLast?_singleton, Option.toList_some, List.singleton_append,
      List.zip_cons_cons, List.zip_nil_right, List.map_cons, List.map_nil, List.sum_cons, List.sum_nil]
    rw [a1, a2, a3, a4, s2, s4]
    norm_num
  · rw [trueArea, trueAreas]
    simp only [roundTrip, List.head?_cons, Option.toList_some, List.cons_append, List.nil_append, pathArea, sideArea_meridian]
    rw [s2, s4, abs_of_neg (by linarith)]
    have : 0 < r ^ 2 := by positivity
    nlinarith

/-- C96 is false for rings that cross the date line: the quadrangle between the meridians 170 and 190 and the parallels 0 and `y`,
with an additional vertex, has the wrong area if 190 is written as -170. -/
theorem C96_violated_dateline (r y : ℝ) (hr : 0 < r) (y0 : 0 < y) (y1 : y < 90) :
    polyArea r (.mk [(170, 0), (-170, 0), (-170, y), (175, y), (170, y)] [])
      ≠ r ^ 2 * trueArea (.mk [(170, 0), (190, 0), (190, y), (175, y), (170, y)] []) := by
  have a1 : sphericalArea r 170 y 170 0 = 0 := area_meridian r _ _ _ _ (by linarith) (by linarith) (by linarith) (by linarith) (by rw [reduce_small] <;> norm_num)
  have a3 : sphericalArea r (-170) 0 (-170) y = 0 := area_meridian r _ _ _ _ (by linarith) (by linarith) (by linarith) (by linarith) (by rw [reduce_small] <;> norm_num)
  have r20 : reduceDeg (-170 - 170) = 20 := reduce_val (-1) (by norm_num) (by norm_num) (by norm_num)
  have r15 : reduceDeg (175 - -170) = -15 := reduce_val 1 (by norm_num) (by norm_num) (by norm_num)
  have a2 : sphericalArea r 170 0 (-170) 0 = 0 := by
    rw [area_turn r _ _ _ _ (by linarith) (by linarith) (by linarith) (by linarith) (by rw [r20]; norm_num) (by rw [r20]; norm_num)]
    obtain ⟨-, -, -, -, -, -, -, k8⟩ := canonical_ok 170 0 (-170) 0
    have : (canonical 170 0 (-170) 0).y1 = 0 ∧ (canonical 170 0 (-170) 0).y2 = 0 := by
      rcases k8 with ⟨u, v⟩ | ⟨u, v⟩ | ⟨u, v⟩ | ⟨u, v⟩ <;> constructor <;> linarith
    rw [this.1, this.2, show rad 0 = 0 by unfold rad; ring, turn_zero, mul_zero]
  have a4 : sphericalArea r (-170) y 175 y = -(r ^ 2 * turn (rad 15) (rad y) (rad y)) := by
    rw [area_turn r _ _ _ _ (by linarith) (by linarith) (by linarith) (by linarith) (by rw [r15]; norm_num) (by rw [r15]; norm_num)]
    obtain ⟨k1, k2, k3, -, -, -, -, k8⟩ := canonical_ok (-170) y 175 y
    have : (canonical (-170) y 175 y).y1 = -y ∧ (canonical (-170) y 175 y).y2 = -y := by
      rcases k8 with ⟨u, v⟩ | ⟨u, v⟩ | ⟨u, v⟩ | ⟨u, v⟩ <;> constructor <;> linarith
    rw [this.1, this.2, rad_neg, turn_neg, r15, if_neg (by norm_num), show |(-15 : ℝ)| = 15 by norm_num]
    ring
  have a5 := (area_side r 175 y 170 y (by linarith) (by linarith) (by linarith) (by linarith) (by norm_num [abs_lt])).1 (by linarith) (by linarith)
  have s5 : sideArea (rad 175) (rad y) (rad 170) (rad y) = -turn (rad 5) (rad y) (rad y) := by
    rw [sideArea_rad (by linarith) (by linarith) (by linarith) (by linarith) (by norm_num) (by norm_num) (by norm_num),
      show (170 - 175 : ℝ) = -5 by norm_num, rad_neg, turn_west]
  have s4 : sideArea (rad 190) (rad y) (rad 175) (rad y) = -turn (rad 15) (rad y) (rad y) := by
    rw [sideArea_rad (by linarith) (by linarith) (by linarith) (by linarith) (by norm_num) (by norm_num) (by norm_num),
      show (175 - 190 : ℝ) = -15 by norm_num, rad_neg, turn_west]
  have s2 : sideArea (rad 170) (rad 0) (rad 190) (rad 0) = 0 := by
    rw [sideArea_rad (by norm_num) (by norm_num) (by norm_num) (by norm_num) (by norm_num) (by norm_num) (by norm_num),
      show rad 0 = 0 by unfold rad; ring, turn_zero]
  have p15 : 0 < turn (rad 15) (rad y) (rad y) := turn_rad_pos (by norm_num) (by norm_num) y0 y1
  have p5 : 0 < turn (rad 5) (rad y) (rad y) := turn_rad_pos (by norm_num) (by norm_num) y0 y1
  have lhs : polyArea r (.mk [(170, 0), (-170, 0), (-170, y), (175, y), (170, y)] [])
      = r ^ 2 * |turn (rad 5) (rad y) (rad y) - turn (rad 15) (rad y) (rad y)| := by
    rw [polyArea, subsArea]
    simp only [ringArea, ringSegs, List.getLast?_cons_cons, List.getLast?_singleton, Option.toList_some, List.singleton_append,
      List.zip_cons_cons, List.zip_nil_right, List.map_cons, List.map_nil, List.sum_cons, List.sum_nil]
    rw [a1, a2, a3, a4, a5, s5, sub_zero, ← abs_of_nonneg (sq_nonneg r), ← abs_mul, abs_of_nonneg (sq_nonneg r)]
    congr 1
    ring
  have rhs : trueArea (.mk [(170, 0), (190, 0), (190, y), (175, y), (170, y)] [])
      = turn (rad 5) (rad y) (rad y) + turn (rad 15) (rad y) (rad y) := by
    rw [trueArea, trueAreas]
    simp only [roundTrip, List.head?_cons, Option.toList_some, List.cons_append, List.nil_append, pathArea, sideArea_meridian]
    rw [s2, s4, s5, abs_of_neg (by linarith)]
    ring
  rw [lhs, rhs]
  intro h
  have h' := mul_left_cancel₀ (by positivity : r ^ 2 ≠ 0) h
  rcases abs_cases (turn (rad 5) (rad y) (rad y) - turn (rad 15) (rad y) (rad y)) with ⟨e, -⟩ | ⟨e, -⟩ <;> linarith

end Karta.Geod.Geodesic
