import Verif.Geod.Geodesic
import Verif.Geod.SphereProps

/-!
# The forward geodesic problem: properties

C94: travelling on a sphere (equal radii) follows the great circle, and the equator of any ellipsoid is followed exactly.
-/

namespace Karta.Geod.Geodesic
open Karta.Geod Karta.Geod.Sphere

/-! ### Specification -/

/-- Spec: the direction of travel, a unit vector, at a position (radians) with an azimuth (radians clockwise from north). -/
noncomputable def heading (lon lat az : ℝ) : V3 :=
  ⟨-(Real.cos az * Real.sin lat * Real.cos lon) - Real.sin az * Real.sin lon,
   -(Real.cos az * Real.sin lat * Real.sin lon) + Real.sin az * Real.cos lon, Real.cos az * Real.cos lat⟩

/-- Spec: the position on the unit sphere of a longitude and latitude (radians). -/
noncomputable def position (lon lat : ℝ) : V3 :=
  ⟨Real.cos lat * Real.cos lon, Real.cos lat * Real.sin lon, Real.sin lat⟩

/-- Spec: the position reached from `p` after following the great circle in the direction `t` by the angle `d`. -/
noncomputable def arc (p t : V3) (d : ℝ) : V3 :=
  ⟨Real.cos d * p.x + Real.sin d * t.x, Real.cos d * p.y + Real.sin d * t.y, Real.cos d * p.z + Real.sin d * t.z⟩

/-- Degrees to radians. -/
noncomputable def rad (d : ℝ) : ℝ := Real.pi * d / 180

/-! ### Lemmas -/

/-- `atan2` of the two sides of a triangle with a known hypotenuse. -/
theorem atan2_of_norm {y x r : ℝ} (h : x ^ 2 + y ^ 2 = r ^ 2) (hr : 0 ≤ r) :
    r * Real.cos (atan2 y x) = x ∧ r * Real.sin (atan2 y x) = y := by
  have h1 := atan2_cos y x
  have h2 := atan2_sin y x
  rw [h, Real.sqrt_sq hr] at h1 h2
  exact ⟨h1, h2⟩

theorem sineSum_zero (s : ℝ) : ∀ (l : List ℝ) (i : Nat), (∀ c ∈ l, c = 0) → sineSumFrom s i l = 0
  | [], _, _ => rfl
  | c :: l, i, h => by
    rw [sineSumFrom, h c (by simp), sineSum_zero s l (i + 1) (fun d hd => h d (by simp [hd]))]
    ring

theorem eps_zero : epsOf 0 = 0 := by unfold epsOf; simp
theorem A1_zero : coefA1 0 = 1 := by unfold coefA1; norm_num
theorem A3_zero (n : ℝ) : coefA3 n 0 = 1 := by unfold coefA3; norm_num
theorem C1_zero (s : ℝ) : sineSum s (coefC1 0) = 0 := sineSum_zero s _ 0 (by unfold coefC1; simp)
theorem C1p_zero (s : ℝ) : sineSum s (coefC1p 0) = 0 := sineSum_zero s _ 0 (by unfold coefC1p; simp)
theorem C3_zero (n s : ℝ) : sineSum s (coefC3 n 0) = 0 := sineSum_zero s _ 0 (by unfold coefC3; simp)

/-- The triangle at the start. -/
structure Node (lat az a0 s1 w1 : ℝ) : Prop where
  c0 : 0 ≤ Real.cos a0
  s0 : Real.sin a0 = Real.sin az * Real.cos lat
  z : Real.cos a0 * Real.sin s1 = Real.sin lat
  n : Real.cos a0 * Real.cos s1 = Real.cos az * Real.cos lat
  cw : Real.cos lat * Real.cos w1 = Real.cos s1
  sw : Real.cos lat * Real.sin w1 = Real.sin a0 * Real.sin s1

theorem node_ok (lat az : ℝ) (hc : 0 ≤ Real.cos lat) :
    Node lat az (alphaZero az lat) (neaSigma az lat) (neaOmega (alphaZero az lat) (neaSigma az lat)) := by
  have e1 := Real.sin_sq_add_cos_sq lat
  have e2 := Real.sin_sq_add_cos_sq az
  set i := Real.sqrt (Real.cos az ^ 2 + (Real.sin az * Real.sin lat) ^ 2) with hi
  have hi2 : i ^ 2 = Real.cos az ^ 2 + (Real.sin az * Real.sin lat) ^ 2 := Real.sq_sqrt (by positivity)
  have hi0 : 0 ≤ i := Real.sqrt_nonneg _
  obtain ⟨a1, a2⟩ := atan2_of_norm (y := Real.sin az * Real.cos lat) (x := i) (r := 1)
    (by rw [hi2]; linear_combination e2 + (Real.sin az) ^ 2 * e1) zero_le_one
  rw [one_mul] at a1 a2
  have a1' : Real.cos (alphaZero az lat) = i := a1
  have a2' : Real.sin (alphaZero az lat) = Real.sin az * Real.cos lat := a2
  obtain ⟨b1, b2⟩ := atan2_of_norm (y := Real.sin lat) (x := Real.cos az * Real.cos lat) (r := i)
    (by rw [hi2]; linear_combination (1 - Real.sin az ^ 2) * e1 + (Real.cos lat ^ 2 - 1) * e2) hi0
  have b1' : i * Real.cos (neaSigma az lat) = Real.cos az * Real.cos lat := b1
  have b2' : i * Real.sin (neaSigma az lat) = Real.sin lat := b2
  have e3 := Real.sin_sq_add_cos_sq (neaSigma az lat)
  have e4 := Real.sin_sq_add_cos_sq (alphaZero az lat)
  rw [a1'] at e4
  obtain ⟨d1, d2⟩ := atan2_of_norm (y := Real.sin (alphaZero az lat) * Real.sin (neaSigma az lat))
    (x := Real.cos (neaSigma az lat)) (r := Real.cos lat)
    (by
      have : Real.cos lat ^ 2 = 1 - (i * Real.sin (neaSigma az lat)) ^ 2 := by rw [b2']; linarith
      rw [this]
      linear_combination e3 + Real.sin (neaSigma az lat) ^ 2 * e4) hc
  exact ⟨by rw [a1']; exact hi0, a2', by rw [a1']; exact b2', by rw [a1']; exact b1', d1, d2⟩

/-- The direction of travel at a position of the node frame. -/
theorem node_heading {lat az a0 s1 w1 : ℝ} (h : Node lat az a0 s1 w1) (hc : 0 < Real.cos lat) :
    heading w1 lat az = ⟨-Real.sin s1, Real.sin a0 * Real.cos s1, Real.cos a0 * Real.cos s1⟩ := by
  have e1 := Real.sin_sq_add_cos_sq lat
  have e3 := Real.sin_sq_add_cos_sq s1
  have e4 := Real.sin_sq_add_cos_sq a0
  have hz := h.z
  have hn := h.n
  have hs := h.s0
  have hcw := h.cw
  have hsw := h.sw
  unfold heading
  have hq : Real.cos lat ^ 2 ≠ 0 := by positivity
  congr 1
  · apply mul_left_cancel₀ hq
    have g1 : Real.cos lat ^ 2 * (-(Real.cos az * Real.sin lat * Real.cos w1) - Real.sin az * Real.sin w1)
        = -((Real.cos az * Real.cos lat) * Real.sin lat * (Real.cos lat * Real.cos w1))
          - (Real.sin az * Real.cos lat) * (Real.cos lat * Real.sin w1) := by ring
    rw [g1, ← hn, ← hs, hcw, hsw]
    have g2 : Real.cos lat ^ 2 = 1 - Real.sin lat ^ 2 := by linarith
    rw [g2, ← hz]
    linear_combination (-Real.sin s1 * Real.cos a0 ^ 2) * e3 - Real.sin s1 * e4
  · apply mul_left_cancel₀ hq
    have g1 : Real.cos lat ^ 2 * (-(Real.cos az * Real.sin lat * Real.sin w1) + Real.sin az * Real.cos w1)
        = -((Real.cos az * Real.cos lat) * Real.sin lat * (Real.cos lat * Real.sin w1))
          + (Real.sin az * Real.cos lat) * (Real.cos lat * Real.cos w1) := by ring
    rw [g1, ← hn, ← hs, hcw, hsw]
    have g2 : Real.cos lat ^ 2 = 1 - Real.sin lat ^ 2 := by linarith
    rw [g2, ← hz]
    ring
  · exact hn.symm

/-- Rotation about the axis. -/
noncomputable def rot (t : ℝ) (v : V3) : V3 :=
  ⟨Real.cos t * v.x - Real.sin t * v.y, Real.sin t * v.x + Real.cos t * v.y, v.z⟩

theorem rot_position (t lon lat : ℝ) : rot t (position lon lat) = position (lon + t) lat := by
  unfold rot position
  rw [Real.cos_add, Real.sin_add]
  simp only
  congr 1 <;> ring

theorem rot_heading (t lon lat az : ℝ) : rot t (heading lon lat az) = heading (lon + t) lat az := by
  unfold rot heading
  rw [Real.cos_add, Real.sin_add]
  simp only
  congr 1 <;> ring

theorem rot_arc (t : ℝ) (p q : V3) (d : ℝ) : rot t (arc p q d) = arc (rot t p) (rot t q) d := by
  unfold rot arc
  simp only
  congr 1 <;> ring

theorem position_add_two_pi (lon lat : ℝ) (k : ℤ) : position (lon + k * (2 * Real.pi)) lat = position lon lat := by
  unfold position
  rw [Real.cos_add_int_mul_two_pi, Real.sin_add_int_mul_two_pi]

/-- The position in the node frame. -/
theorem node_position {lat az a0 s1 w1 : ℝ} (h : Node lat az a0 s1 w1) :
    position w1 lat = ⟨Real.cos s1, Real.sin a0 * Real.sin s1, Real.cos a0 * Real.sin s1⟩ := by
  unfold position
  rw [h.cw, h.sw, h.z]

/-- Going on by `d` in the node frame. -/
theorem node_arc {lat az a0 s1 w1 : ℝ} (h : Node lat az a0 s1 w1) (hc : 0 < Real.cos lat) (d : ℝ) :
    arc (position w1 lat) (heading w1 lat az) d
    = ⟨Real.cos (s1 + d), Real.sin a0 * Real.sin (s1 + d), Real.cos a0 * Real.sin (s1 + d)⟩ := by
  rw [node_position h, node_heading h hc]
  unfold arc
  rw [Real.cos_add, Real.sin_add]
  simp only
  congr 1 <;> ring

/-- The triangle at the destination. -/
theorem node_dest (a0 s2 : ℝ) (h0 : 0 ≤ Real.cos a0) :
    let j := Real.sqrt ((Real.cos a0 * Real.cos s2) ^ 2 + Real.sin a0 ^ 2)
    let b2 := atan2 (Real.cos a0 * Real.sin s2) j
    let az2 := atan2 (Real.sin a0) (Real.cos a0 * Real.cos s2)
    let w2 := atan2 (Real.sin a0 * Real.sin s2) (Real.cos s2)
    Real.cos b2 = j ∧ 0 ≤ Real.cos b2 ∧ Node b2 az2 a0 s2 w2 := by
  intro j b2 az2 w2
  have e3 := Real.sin_sq_add_cos_sq s2
  have e4 := Real.sin_sq_add_cos_sq a0
  have hj2 : j ^ 2 = (Real.cos a0 * Real.cos s2) ^ 2 + Real.sin a0 ^ 2 := Real.sq_sqrt (by positivity)
  have hj0 : 0 ≤ j := Real.sqrt_nonneg _
  obtain ⟨a1, a2⟩ := atan2_of_norm (y := Real.cos a0 * Real.sin s2) (x := j) (r := 1)
    (by rw [hj2]; linear_combination (Real.cos a0 ^ 2) * e3 + e4) zero_le_one
  rw [one_mul] at a1 a2
  obtain ⟨b1, b2'⟩ := atan2_of_norm (y := Real.sin a0) (x := Real.cos a0 * Real.cos s2) (r := j) (by rw [hj2]) hj0
  obtain ⟨d1, d2⟩ := atan2_of_norm (y := Real.sin a0 * Real.sin s2) (x := Real.cos s2) (r := j)
    (by rw [hj2]; linear_combination (1 - Real.cos a0 ^ 2) * e3 + (Real.sin s2 ^ 2 - 1) * e4) hj0
  have hcb : Real.cos b2 = j := a1
  refine ⟨hcb, by rw [hcb]; exact hj0, h0, ?_, a2.symm, ?_, ?_, ?_⟩
  · rw [hcb, mul_comm]; exact b2'.symm
  · rw [hcb, mul_comm (Real.cos az2)]; exact b1.symm
  · rw [hcb]; exact d1
  · rw [hcb]; exact d2

theorem sph2cart_position (lon lat : ℝ) : sph2cart lon lat = position (rad lon) (rad lat) := by
  rw [sph2cart_eq]; rfl

/-- Latitude of the destination. -/
theorem atan_tan_atan2 {y x : ℝ} (hx : 0 < x) : Real.arctan (Real.tan (atan2 y x)) = atan2 y x := by
  have hx' : 0 < (⟨x, y⟩ : ℂ).re := hx
  have h := Complex.abs_arg_lt_pi_div_two_iff.mpr (Or.inl hx')
  have h' := abs_lt.mp h
  exact Real.arctan_tan h'.1 h'.2

/-- Reduction of the longitude at the end of `ellipsoidal_forward`. -/
theorem fold_cong (u : ℝ) : ∃ k : ℤ,
    pyModR ((open Classical in if 180 ≤ u then u - 360 else u) + 180) 360 - 180 = u + 360 * k ∧
    -180 ≤ pyModR ((open Classical in if 180 ≤ u then u - 360 else u) + 180) 360 - 180 ∧
    pyModR ((open Classical in if 180 ≤ u then u - 360 else u) + 180) 360 - 180 < 180 := by
  have hm := fun t => pyModR_mem t (show (0 : ℝ) < 360 by norm_num)
  by_cases hc : 180 ≤ u
  · rw [if_pos hc]
    obtain ⟨k, hk⟩ := pyModR_cong (u - 360 + 180) 360
    refine ⟨k - 1, ?_, by linarith [(hm (u - 360 + 180)).1], by linarith [(hm (u - 360 + 180)).2]⟩
    rw [hk]; push_cast; ring
  · rw [if_neg hc]
    obtain ⟨k, hk⟩ := pyModR_cong (u + 180) 360
    refine ⟨k, ?_, by linarith [(hm (u + 180)).1], by linarith [(hm (u + 180)).2]⟩
    rw [hk]; ring

/-- What `ellipsoidal_forward` computes on a sphere. -/
theorem forward_sphere (R x y az d : ℝ) (hR : 0 < R) (hy1 : -90 < y) (hy2 : y < 90) :
    let a0 := alphaZero (rad az) (rad y)
    let s1 := neaSigma (rad az) (rad y)
    let w1 := neaOmega a0 s1
    let s2 := s1 + d / R
    let w2 := atan2 (Real.sin a0 * Real.sin s2) (Real.cos s2)
    let b2 := atan2 (Real.cos a0 * Real.sin s2) (Real.sqrt ((Real.cos a0 * Real.cos s2) ^ 2 + Real.sin a0 ^ 2))
    let az2 := atan2 (Real.sin a0) (Real.cos a0 * Real.cos s2)
    ∃ k : ℤ, (ellipsoidalForward R R x y az d).1 = x + (w2 - w1) * 180 / Real.pi + 360 * k ∧
      (ellipsoidalForward R R x y az d).2.1 = Real.arctan (Real.tan b2) * 180 / Real.pi ∧
      (ellipsoidalForward R R x y az d).2.2 = pyModR ((az2 + Real.pi) * 180 / Real.pi + 180) 360 - 180 ∧
      -180 ≤ (ellipsoidalForward R R x y az d).1 ∧ (ellipsoidalForward R R x y az d).1 < 180 := by
  intro a0 s1 w1 s2 w2 b2 az2
  have hpi := Real.pi_pos
  have hf : (R - R) / R = 0 := by simp
  have hb1 : Real.arctan ((1 - 0) * Real.tan (Real.pi * y / 180)) = rad y := by
    rw [sub_zero, one_mul]
    exact Real.arctan_tan (by nlinarith) (by nlinarith)
  have htau : (1 * (s1 + 0) * R + d) / (R * 1) = s2 := by
    show _ = s1 + d / R
    field_simp
    ring
  have key : ellipsoidalForward R R x y az d = (pyModR ((open Classical in if 180 ≤ x + (w2 - w1) * 180 / Real.pi then
      x + (w2 - w1) * 180 / Real.pi - 360 else x + (w2 - w1) * 180 / Real.pi) + 180) 360 - 180,
      Real.arctan (Real.tan b2) * 180 / Real.pi, pyModR ((az2 + Real.pi) * 180 / Real.pi + 180) 360 - 180) := by
    unfold ellipsoidalForward
    dsimp only
    rw [hf, hb1]
    have hk2 : (0 : ℝ) * (2 - 0) / (1 - 0 * (2 - 0)) * Real.cos (alphaZero (Real.pi * az / 180) (rad y)) ^ 2 = 0 := by ring
    rw [hk2, eps_zero, A1_zero, C1_zero]
    have htau' : (1 * (neaSigma (Real.pi * az / 180) (rad y) + 0) * R + d) / (R * 1) = s2 := htau
    rw [htau', C1p_zero]
    simp only [add_zero, zero_mul, sub_zero, div_one]
    rfl
  obtain ⟨k, hk, h1, h2⟩ := fold_cong (x + (w2 - w1) * 180 / Real.pi)
  rw [key]
  exact ⟨k, hk, rfl, rfl, h1, h2⟩

/-! ### C94 -/

theorem rad_back (t : ℝ) : rad (t * 180 / Real.pi) = t := by
  unfold rad
  have := Real.pi_ne_zero
  field_simp

theorem cos_rad_pos {y : ℝ} (h1 : -90 < y) (h2 : y < 90) : 0 < Real.cos (rad y) := by
  have hpi := Real.pi_pos
  unfold rad
  exact Real.cos_pos_of_mem_Ioo ⟨by nlinarith, by nlinarith⟩

/-- The great circle in the node frame. -/
theorem arc_eq {x y az a0 s1 w1 : ℝ} (h : Node y az a0 s1 w1) (hc : 0 < Real.cos y) (d : ℝ) :
    arc (position x y) (heading x y az) d
    = rot (x - w1) ⟨Real.cos (s1 + d), Real.sin a0 * Real.sin (s1 + d), Real.cos a0 * Real.sin (s1 + d)⟩ := by
  rw [← node_arc h hc, rot_arc, rot_position, rot_heading]
  congr 2 <;> ring

theorem rot_xy (t : ℝ) (v : V3) (h : (rot t v).x ≠ 0 ∨ (rot t v).y ≠ 0) : v.x ≠ 0 ∨ v.y ≠ 0 := by
  by_contra hc
  push Not at hc
  unfold rot at h
  rw [hc.1, hc.2] at h
  simp at h

/-- All that is known about the destination on a sphere. -/
theorem forward_dest (R x y az d : ℝ) (hR : 0 < R) (hy1 : -90 < y) (hy2 : y < 90)
    (hp : (arc (position (rad x) (rad y)) (heading (rad x) (rad y) (rad az)) (d / R)).x ≠ 0 ∨
      (arc (position (rad x) (rad y)) (heading (rad x) (rad y) (rad az)) (d / R)).y ≠ 0) :
    ∃ (a0 s1 w1 b2 az2 w2 : ℝ) (k j : ℤ), Node (rad y) (rad az) a0 s1 w1 ∧ Node b2 az2 a0 (s1 + d / R) w2 ∧ 0 < Real.cos b2 ∧
      rad (ellipsoidalForward R R x y az d).1 = rad x + (w2 - w1) + k * (2 * Real.pi) ∧
      rad (ellipsoidalForward R R x y az d).2.1 = b2 ∧ -(Real.pi / 2) < b2 ∧ b2 < Real.pi / 2 ∧
      rad (ellipsoidalForward R R x y az d).2.2 = az2 + Real.pi + j * (2 * Real.pi) := by
  have hpi := Real.pi_pos
  have hc := cos_rad_pos hy1 hy2
  have hn := node_ok (rad y) (rad az) hc.le
  obtain ⟨k, e1, e2, e3, -, -⟩ := forward_sphere R x y az d hR hy1 hy2
  rw [arc_eq hn hc] at hp
  have hp' := rot_xy _ _ hp
  set a0 := alphaZero (rad az) (rad y)
  set s1 := neaSigma (rad az) (rad y)
  set w1 := neaOmega a0 s1
  set s2 := s1 + d / R
  obtain ⟨f1, f2, f3⟩ := node_dest a0 s2 hn.c0
  set j := Real.sqrt ((Real.cos a0 * Real.cos s2) ^ 2 + Real.sin a0 ^ 2) with hj
  set b2 := atan2 (Real.cos a0 * Real.sin s2) j
  set az2 := atan2 (Real.sin a0) (Real.cos a0 * Real.cos s2)
  set w2 := atan2 (Real.sin a0 * Real.sin s2) (Real.cos s2)
  have hj0 : 0 < j := by
    rcases (Real.sqrt_nonneg _ : 0 ≤ j).lt_or_eq with h | h
    · exact h
    · exfalso
      have hb : Real.cos b2 = 0 := by rw [f1]; exact h.symm
      have c1 := f3.cw
      have c2 := f3.sw
      rw [hb, zero_mul] at c1 c2
      rcases hp' with h' | h'
      · exact h' c1.symm
      · exact h' c2.symm
  have hb2 := abs_lt.mp (Complex.abs_arg_lt_pi_div_two_iff.mpr (Or.inl (show 0 < (⟨j, Real.cos a0 * Real.sin s2⟩ : ℂ).re from hj0)))
  obtain ⟨m, hm⟩ := pyModR_cong ((az2 + Real.pi) * 180 / Real.pi + 180) 360
  refine ⟨a0, s1, w1, b2, az2, w2, k, m, hn, f3, by rw [f1]; exact hj0, ?_, ?_, hb2.1, hb2.2, ?_⟩
  · rw [e1]; unfold rad; field_simp; ring
  · rw [e2, rad_back, atan_tan_atan2 hj0]
  · rw [e3, hm]; unfold rad; field_simp; ring

/-- C94, partial (the destination must not be a pole; on spheres only).  Travelling on a sphere of radius `R` from any position
off the poles, with any azimuth and for any distance, leads to the position on the great circle in that direction at the angle
`d / R`.  The longitude is at least -180 and less than 180. -/
theorem C94_great_circle_partial (R x y az d : ℝ) (hR : 0 < R) (hy1 : -90 < y) (hy2 : y < 90)
    (hp : (arc (position (rad x) (rad y)) (heading (rad x) (rad y) (rad az)) (d / R)).x ≠ 0 ∨
      (arc (position (rad x) (rad y)) (heading (rad x) (rad y) (rad az)) (d / R)).y ≠ 0) :
    position (rad (ellipsoidalForward R R x y az d).1) (rad (ellipsoidalForward R R x y az d).2.1)
      = arc (position (rad x) (rad y)) (heading (rad x) (rad y) (rad az)) (d / R) ∧
    -180 ≤ (ellipsoidalForward R R x y az d).1 ∧ (ellipsoidalForward R R x y az d).1 < 180 ∧
    -90 < (ellipsoidalForward R R x y az d).2.1 ∧ (ellipsoidalForward R R x y az d).2.1 < 90 := by
  have hpi := Real.pi_pos
  have hc := cos_rad_pos hy1 hy2
  obtain ⟨a0, s1, w1, b2, az2, w2, k, j, n1, n2, hb, e1, e2, e4, e5, -⟩ := forward_dest R x y az d hR hy1 hy2 hp
  obtain ⟨-, -, -, -, r1, r2⟩ := forward_sphere R x y az d hR hy1 hy2
  refine ⟨?_, r1, r2, ?_, ?_⟩
  · rw [e1, e2, position_add_two_pi, arc_eq n1 hc, ← node_position n2, rot_position]
    congr 1; ring
  · rw [← e2] at e4; unfold rad at e4; by_contra hcon; push Not at hcon; nlinarith
  · rw [← e2] at e5; unfold rad at e5; by_contra hcon; push Not at hcon; nlinarith

/-- A position determines its coordinates. -/
theorem position_inj {x y x' y' : ℝ} (h : position (rad x) (rad y) = position (rad x') (rad y')) (hy1 : -90 < y) (hy2 : y < 90)
    (hy1' : -90 < y') (hy2' : y' < 90) (hx1 : -180 ≤ x) (hx2 : x < 180) (hx1' : -180 ≤ x') (hx2' : x' < 180) : x = x' ∧ y = y' := by
  have hpi := Real.pi_pos
  have hx := congrArg V3.x h
  have hy := congrArg V3.y h
  have hz := congrArg V3.z h
  simp only [position] at hx hy hz
  have e : rad y = rad y' := Real.injOn_sin ⟨by unfold rad; nlinarith, by unfold rad; nlinarith⟩
    ⟨by unfold rad; nlinarith, by unfold rad; nlinarith⟩ hz
  have ey : y = y' := by
    unfold rad at e
    have : Real.pi * (y - y') = 0 := by linarith
    rcases mul_eq_zero.mp this with h | h
    · exact absurd h hpi.ne'
    · linarith
  subst ey
  have hc := cos_rad_pos hy1 hy2
  have h1 := mul_left_cancel₀ hc.ne' hx
  have h2 := mul_left_cancel₀ hc.ne' hy
  refine ⟨?_, rfl⟩
  have hcs : Real.cos (rad x - rad x') = 1 := by
    rw [Real.cos_sub, h1, h2]
    have := Real.sin_sq_add_cos_sq (rad x')
    nlinarith
  obtain ⟨k, hk⟩ := (Real.cos_eq_one_iff _).mp hcs
  have hk' : (k : ℝ) * 360 = x - x' := by
    unfold rad at hk
    have : Real.pi * ((k : ℝ) * 360 - (x - x')) = 0 := by linarith
    rcases mul_eq_zero.mp this with h | h
    · exact absurd h hpi.ne'
    · linarith
  have k1 : (k : ℝ) < 1 := by linarith
  have k2 : (-1 : ℝ) < k := by linarith
  have k1' : k < 1 := by exact_mod_cast k1
  have k2' : -1 < k := by exact_mod_cast k2
  have k0 : k = 0 := by omega
  rw [k0] at hk'
  push_cast at hk'
  linarith

/-- C94, partial (see above).  Travelling the same distance with the reported back azimuth leads back to the start. -/
theorem C94_return_partial (R x y az d : ℝ) (hR : 0 < R) (hx1 : -180 ≤ x) (hx2 : x < 180) (hy1 : -90 < y) (hy2 : y < 90)
    (hp : (arc (position (rad x) (rad y)) (heading (rad x) (rad y) (rad az)) (d / R)).x ≠ 0 ∨
      (arc (position (rad x) (rad y)) (heading (rad x) (rad y) (rad az)) (d / R)).y ≠ 0) :
    (ellipsoidalForward R R (ellipsoidalForward R R x y az d).1 (ellipsoidalForward R R x y az d).2.1
      (ellipsoidalForward R R x y az d).2.2 d).1 = x ∧
    (ellipsoidalForward R R (ellipsoidalForward R R x y az d).1 (ellipsoidalForward R R x y az d).2.1
      (ellipsoidalForward R R x y az d).2.2 d).2.1 = y := by
  have hc := cos_rad_pos hy1 hy2
  obtain ⟨-, r1, r2, r3, r4⟩ := C94_great_circle_partial R x y az d hR hy1 hy2 hp
  obtain ⟨a0, s1, w1, b2, az2, w2, k, j, n1, n2, hb, e1, e2, -, -, e3⟩ := forward_dest R x y az d hR hy1 hy2 hp
  set q := ellipsoidalForward R R x y az d
  have hh : heading (rad q.1) (rad q.2.1) (rad q.2.2) =
      ⟨-(heading (rad q.1) b2 az2).x, -(heading (rad q.1) b2 az2).y, -(heading (rad q.1) b2 az2).z⟩ := by
    rw [e2, e3]
    unfold heading
    simp only [Real.cos_add_int_mul_two_pi, Real.sin_add_int_mul_two_pi, Real.cos_add_pi, Real.sin_add_pi]
    congr 1 <;> ring
  have harc : arc (position (rad q.1) (rad q.2.1)) (heading (rad q.1) (rad q.2.1) (rad q.2.2)) (d / R)
      = position (rad x) (rad y) := by
    have h1 : arc (position (rad q.1) (rad q.2.1)) (heading (rad q.1) (rad q.2.1) (rad q.2.2)) (d / R)
        = arc (position (rad q.1) b2) (heading (rad q.1) b2 az2) (-(d / R)) := by
      rw [hh, e2]
      unfold arc
      rw [Real.cos_neg, Real.sin_neg]
      simp only
      congr 1 <;> ring
    rw [h1, arc_eq n2 hb, add_neg_cancel_right, ← node_position n1, rot_position, e1]
    rw [show w1 + (rad x + (w2 - w1) + k * (2 * Real.pi) - w2) = rad x + k * (2 * Real.pi) by ring, position_add_two_pi]
  have hp' : (arc (position (rad q.1) (rad q.2.1)) (heading (rad q.1) (rad q.2.1) (rad q.2.2)) (d / R)).x ≠ 0 ∨
      (arc (position (rad q.1) (rad q.2.1)) (heading (rad q.1) (rad q.2.1) (rad q.2.2)) (d / R)).y ≠ 0 := by
    rw [harc]
    by_contra hcon
    push Not at hcon
    simp only [position] at hcon
    have h1 := (mul_eq_zero.mp hcon.1).resolve_left hc.ne'
    have h2 := (mul_eq_zero.mp hcon.2).resolve_left hc.ne'
    have := Real.sin_sq_add_cos_sq (rad x)
    rw [h1, h2] at this
    norm_num at this
  obtain ⟨g, g1, g2, g3, g4⟩ := C94_great_circle_partial R q.1 q.2.1 q.2.2 d hR r3 r4 hp'
  rw [harc] at g
  exact position_inj g g3 g4 hy1 hy2 g1 g2 hx1 hx2

/-- C94, partial (see above).  The great-circle distance between start and destination, at most half way round, is the distance
travelled. -/
theorem C94_distance_partial (R x y az d : ℝ) (hR : 0 < R) (hy1 : -90 < y) (hy2 : y < 90) (hd0 : 0 ≤ d) (hd1 : d ≤ R * Real.pi)
    (hp : (arc (position (rad x) (rad y)) (heading (rad x) (rad y) (rad az)) (d / R)).x ≠ 0 ∨
      (arc (position (rad x) (rad y)) (heading (rad x) (rad y) (rad az)) (d / R)).y ≠ 0) :
    R * centralAngle (rad x) (rad y) (rad (ellipsoidalForward R R x y az d).1) (rad (ellipsoidalForward R R x y az d).2.1) = d := by
  have h := (C94_great_circle_partial R x y az d hR hy1 hy2 hp).1
  set q := ellipsoidalForward R R x y az d
  rw [centralAngle_eq]
  have hx := congrArg V3.x h
  have hy := congrArg V3.y h
  have hz := congrArg V3.z h
  simp only [position, arc, heading] at hx hy hz
  have e1 := Real.sin_sq_add_cos_sq (rad x)
  have e2 := Real.sin_sq_add_cos_sq (rad y)
  have key : Real.sin (rad y) * Real.sin (rad q.2.1) + Real.cos (rad y) * Real.cos (rad q.2.1) * Real.cos (rad x - rad q.1)
      = Real.cos (d / R) := by
    rw [Real.cos_sub]
    have : Real.sin (rad y) * Real.sin (rad q.2.1) + Real.cos (rad y) * Real.cos (rad q.2.1) *
        (Real.cos (rad x) * Real.cos (rad q.1) + Real.sin (rad x) * Real.sin (rad q.1))
        = Real.sin (rad y) * Real.sin (rad q.2.1) + Real.cos (rad y) * Real.cos (rad x) * (Real.cos (rad q.2.1) * Real.cos (rad q.1))
          + Real.cos (rad y) * Real.sin (rad x) * (Real.cos (rad q.2.1) * Real.sin (rad q.1)) := by ring
    rw [this, hx, hy, hz]
    linear_combination (Real.cos (d / R) * Real.cos (rad y) ^ 2 - Real.sin (d / R) * Real.cos (rad y) * Real.cos (rad az) * Real.sin (rad y)) * e1
      + Real.cos (d / R) * e2
  rw [key, Real.arccos_cos (by positivity) (by rw [div_le_iff₀ hR]; linarith)]
  field_simp

/-- Eastward from (0, 60) by a right angle, on a sphere of radius 2: the destination is on the equator. -/
example : position (rad (ellipsoidalForward 2 2 0 60 90 Real.pi).1) (rad (ellipsoidalForward 2 2 0 60 90 Real.pi).2.1) = ⟨0, 1, 0⟩ := by
  have e1 : rad 90 = Real.pi / 2 := by unfold rad; ring
  have e0 : rad 0 = 0 := by unfold rad; ring
  have hv : arc (position (rad 0) (rad 60)) (heading (rad 0) (rad 60) (rad 90)) (Real.pi / 2) = ⟨0, 1, 0⟩ := by
    rw [e0, e1]; unfold arc position heading; simp
  have := (C94_great_circle_partial 2 0 60 90 Real.pi (by norm_num) (by norm_num) (by norm_num) (by rw [hv]; right; norm_num)).1
  rw [this, hv]

/-- C94, the equator.  Travelling along the equator of any ellipsoid, eastward for positive and westward for negative
distances, changes the longitude by the distance over the equatorial radius. -/
theorem C94_equator (a b x d : ℝ) (ha : 0 < a) (hb : 0 < b) :
    (∃ k : ℤ, (ellipsoidalForward a b x 0 90 d).1 = x + d / a * 180 / Real.pi + 360 * k) ∧
    -180 ≤ (ellipsoidalForward a b x 0 90 d).1 ∧ (ellipsoidalForward a b x 0 90 d).1 < 180 ∧
    (ellipsoidalForward a b x 0 90 d).2 = (0, -90) := by
  have hpi := Real.pi_pos
  have hphi : Real.arctan ((1 - (a - b) / a) * Real.tan (Real.pi * 0 / 180)) = 0 := by simp
  have haz : Real.pi * 90 / 180 = Real.pi / 2 := by ring
  have hz : ∀ r : ℝ, 0 < r → atan2 0 r = 0 := by
    intro r hr
    have := atan2_polar hr (θ := 0) (by linarith) hpi.le
    simpa using this
  have h1 : atan2 1 0 = Real.pi / 2 := by
    have := atan2_polar one_pos (θ := Real.pi / 2) (by linarith) (by linarith)
    simpa using this
  have h0 : atan2 0 0 = 0 := by unfold atan2; exact Complex.arg_zero
  have hA0 : alphaZero (Real.pi / 2) 0 = Real.pi / 2 := by
    unfold alphaZero; simp [h1]
  have hS1 : neaSigma (Real.pi / 2) 0 = 0 := by
    unfold neaSigma; simp [h0]
  have hW1 : neaOmega (Real.pi / 2) 0 = 0 := by
    unfold neaOmega; simp [hz]
  have key : ellipsoidalForward a b x 0 90 d = (pyModR ((open Classical in if
      180 ≤ x + (atan2 (Real.sin (d / b)) (Real.cos (d / b)) - (a - b) / a * (d / b)) * 180 / Real.pi then
      x + (atan2 (Real.sin (d / b)) (Real.cos (d / b)) - (a - b) / a * (d / b)) * 180 / Real.pi - 360 else
      x + (atan2 (Real.sin (d / b)) (Real.cos (d / b)) - (a - b) / a * (d / b)) * 180 / Real.pi) + 180) 360 - 180,
      0, pyModR ((Real.pi / 2 + Real.pi) * 180 / Real.pi + 180) 360 - 180) := by
    unfold ellipsoidalForward
    dsimp only
    rw [hphi, haz, hA0, hS1, hW1, Real.cos_pi_div_two, Real.sin_pi_div_two]
    have hk2 : (a - b) / a * (2 - (a - b) / a) / (1 - (a - b) / a * (2 - (a - b) / a)) * (0 : ℝ) ^ 2 = 0 := by ring
    have ht : (1 * ((0 : ℝ) + 0) * b + d) / (b * 1) = d / b := by ring
    rw [hk2, eps_zero, A1_zero, C1_zero, ht, C1p_zero, A3_zero, C3_zero, C3_zero]
    simp only [zero_mul, add_zero, one_mul, mul_zero, sub_zero, one_pow]
    rw [h1]
    have hj : Real.sqrt ((0 : ℝ) ^ 2 + 1) = 1 := by norm_num
    rw [hj, hz 1 one_pos, Real.tan_zero, zero_div, Real.arctan_zero, zero_mul, zero_div]
    simp only [mul_one]
  obtain ⟨k, hk, r1, r2⟩ := fold_cong (x + (atan2 (Real.sin (d / b)) (Real.cos (d / b)) - (a - b) / a * (d / b)) * 180 / Real.pi)
  rw [key]
  refine ⟨?_, r1, r2, ?_⟩
  · -- the node longitude is the arc length up to full turns
    obtain ⟨c1, c2⟩ := atan2_of_norm (y := Real.sin (d / b)) (x := Real.cos (d / b)) (r := 1)
      (by have := Real.sin_sq_add_cos_sq (d / b); linarith) zero_le_one
    rw [one_mul] at c1 c2
    have hcs : Real.cos (atan2 (Real.sin (d / b)) (Real.cos (d / b)) - d / b) = 1 := by
      rw [Real.cos_sub, c1, c2]; have := Real.sin_sq_add_cos_sq (d / b); nlinarith
    obtain ⟨m, hm⟩ := (Real.cos_eq_one_iff _).mp hcs
    refine ⟨k + m, ?_⟩
    show pyModR _ 360 - 180 = _
    rw [hk]
    have : atan2 (Real.sin (d / b)) (Real.cos (d / b)) = d / b + m * (2 * Real.pi) := by linarith
    rw [this]
    push_cast
    field_simp
    ring
  · have e : (Real.pi / 2 + Real.pi) * 180 / Real.pi + 180 = 90 + 360 * ((1 : ℤ) : ℝ) := by
      push_cast; field_simp; ring
    show (_, _) = _
    rw [e, pyModR_add _ (by norm_num), pyModR_self (by norm_num) (by norm_num)]
    norm_num

end Karta.Geod.Geodesic
