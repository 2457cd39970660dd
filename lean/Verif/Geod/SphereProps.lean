import Verif.Geod.Sphere
import Mathlib.Analysis.InnerProductSpace.PiL2
import Mathlib.Geometry.Euclidean.Angle.Unoriented.TriangleInequality
import Mathlib.Tactic.LinearCombination

/-!
Properties C87 (great-circle distance), C88 (Cartesian round trip) and C89 (spherical intersections).
-/

namespace Karta.Geod.Sphere
open Karta Karta.Geod

/-! ### C87 -/

/-- Spec: the position on the unit sphere of a longitude and latitude in radians. -/
noncomputable def onSphere (lon lat : ℝ) : EuclideanSpace ℝ (Fin 3) :=
  !₂[Real.cos lat * Real.cos lon, Real.cos lat * Real.sin lon, Real.sin lat]

/-- Spec: the angle at the centre between two positions. -/
noncomputable def centralAngle (lon1 lat1 lon2 lat2 : ℝ) : ℝ :=
  InnerProductGeometry.angle (onSphere lon1 lat1) (onSphere lon2 lat2)

theorem inner_onSphere (lon1 lat1 lon2 lat2 : ℝ) : inner ℝ (onSphere lon1 lat1) (onSphere lon2 lat2)
    = Real.sin lat1 * Real.sin lat2 + Real.cos lat1 * Real.cos lat2 * Real.cos (lon1 - lon2) := by
  simp only [onSphere, PiLp.inner_apply, Fin.sum_univ_three, Real.cos_sub]
  simp
  ring

theorem norm_onSphere (lon lat : ℝ) : ‖onSphere lon lat‖ = 1 := by
  have h : ‖onSphere lon lat‖ ^ 2 = 1 := by
    rw [← real_inner_self_eq_norm_sq, inner_onSphere]
    simp only [sub_self, Real.cos_zero]
    have := Real.sin_sq_add_cos_sq lat
    linarith [this]
  have h0 := norm_nonneg (onSphere lon lat)
  nlinarith

theorem centralAngle_eq (lon1 lat1 lon2 lat2 : ℝ) : centralAngle lon1 lat1 lon2 lat2
    = Real.arccos (Real.sin lat1 * Real.sin lat2 + Real.cos lat1 * Real.cos lat2 * Real.cos (lon1 - lon2)) := by
  unfold centralAngle InnerProductGeometry.angle
  rw [norm_onSphere, norm_onSphere, inner_onSphere]
  norm_num

theorem inner_bounds (lon1 lat1 lon2 lat2 : ℝ) :
    -1 ≤ Real.sin lat1 * Real.sin lat2 + Real.cos lat1 * Real.cos lat2 * Real.cos (lon1 - lon2) ∧
    Real.sin lat1 * Real.sin lat2 + Real.cos lat1 * Real.cos lat2 * Real.cos (lon1 - lon2) ≤ 1 := by
  rw [← inner_onSphere]
  have h := abs_real_inner_le_norm (onSphere lon1 lat1) (onSphere lon2 lat2)
  rw [norm_onSphere, norm_onSphere, mul_one] at h
  exact abs_le.mp h

/-- The haversine formula computes the arc cosine. -/
theorem haversine {c : ℝ} (h1 : -1 ≤ c) (h2 : c ≤ 1) : 2 * Real.arcsin (Real.sqrt ((1 - c) / 2)) = Real.arccos c := by
  have hd0 := Real.arccos_nonneg c
  have hd1 := Real.arccos_le_pi c
  have hpi := Real.pi_pos
  have hc := Real.cos_arccos h1 h2
  have hs : (1 - c) / 2 = Real.sin (Real.arccos c / 2) ^ 2 := by
    have h3 := Real.cos_sq (Real.arccos c / 2)
    have h4 := Real.sin_sq_add_cos_sq (Real.arccos c / 2)
    rw [show 2 * (Real.arccos c / 2) = Real.arccos c by ring, hc] at h3
    linarith
  have hpos : 0 ≤ Real.sin (Real.arccos c / 2) := Real.sin_nonneg_of_nonneg_of_le_pi (by linarith) (by linarith)
  rw [hs, Real.sqrt_sq hpos, Real.arcsin_sin (by linarith) (by linarith)]
  ring

theorem half_sq (t : ℝ) : Real.sin (t / 2) ^ 2 = (1 - Real.cos t) / 2 := by
  have h3 := Real.cos_sq (t / 2)
  have h4 := Real.sin_sq_add_cos_sq (t / 2)
  rw [show 2 * (t / 2) = t by ring] at h3
  linarith

theorem hav_arg (lon1 lat1 lon2 lat2 : ℝ) :
    Real.sin (|lat1 - lat2| / 2) ^ 2 + Real.cos lat1 * Real.cos lat2 * Real.sin (|lon1 - lon2| / 2) ^ 2
    = (1 - (Real.sin lat1 * Real.sin lat2 + Real.cos lat1 * Real.cos lat2 * Real.cos (lon1 - lon2))) / 2 := by
  rw [half_sq, half_sq, Real.cos_abs, Real.cos_abs, Real.cos_sub lat1 lat2]
  ring

/-- C87.  Whichever of its two formulas is used, `sphere_distance` is the radius times the angle between the two positions
as seen from the centre of the sphere. -/
theorem C87_great_circle (lon1 lat1 lon2 lat2 radius : ℝ) :
    sphereDistance lon1 lat1 lon2 lat2 radius = radius * centralAngle lon1 lat1 lon2 lat2 := by
  unfold sphereDistance
  rw [centralAngle_eq]
  dsimp only
  congr 1
  by_cases h : 1 / 100 < |lon1 - lon2| ∨ 1 / 100 < |lat1 - lat2|
  · rw [if_pos h, Real.cos_abs]
  · rw [if_neg h, hav_arg]
    exact haversine (inner_bounds _ _ _ _).1 (inner_bounds _ _ _ _).2

/-- C87, the compiled version, which takes degrees. -/
theorem C87_compiled (lon0 lat0 lon1 lat1 : ℝ) : distSph lon0 lat0 lon1 lat1
    = centralAngle (lon0 * Real.pi / 180) (lat0 * Real.pi / 180) (lon1 * Real.pi / 180) (lat1 * Real.pi / 180) := by
  have hpi := Real.pi_pos
  have e : ∀ a b : ℝ, |a - b| * Real.pi / 180 = |a * Real.pi / 180 - b * Real.pi / 180| := by
    intro a b
    rw [show a * Real.pi / 180 - b * Real.pi / 180 = (a - b) * (Real.pi / 180) by ring, abs_mul, abs_of_pos (by positivity : 0 < Real.pi / 180)]
    ring
  have hf : ∀ t : ℝ, 1 / 2 * t = t / 2 := fun t => by ring
  rw [← one_mul (centralAngle _ _ _ _), ← C87_great_circle]
  unfold distSph sphereDistance
  simp only [e, hf, one_mul]

/-- C87, metric.  On a sphere of positive radius the distance is symmetric, at least zero and at most half the
circumference, zero exactly for equal positions, and no detour is shorter. -/
theorem C87_metric (lon1 lat1 lon2 lat2 lon3 lat3 radius : ℝ) (hr : 0 < radius) :
    sphereDistance lon1 lat1 lon2 lat2 radius = sphereDistance lon2 lat2 lon1 lat1 radius ∧
    0 ≤ sphereDistance lon1 lat1 lon2 lat2 radius ∧ sphereDistance lon1 lat1 lon2 lat2 radius ≤ Real.pi * radius ∧
    (sphereDistance lon1 lat1 lon2 lat2 radius = 0 ↔ onSphere lon1 lat1 = onSphere lon2 lat2) ∧
    sphereDistance lon1 lat1 lon3 lat3 radius
      ≤ sphereDistance lon1 lat1 lon2 lat2 radius + sphereDistance lon2 lat2 lon3 lat3 radius := by
  simp only [C87_great_circle, centralAngle]
  refine ⟨by rw [InnerProductGeometry.angle_comm], mul_nonneg hr.le (InnerProductGeometry.angle_nonneg _ _), ?_, ?_, ?_⟩
  · rw [mul_comm]; exact mul_le_mul_of_nonneg_right (InnerProductGeometry.angle_le_pi _ _) hr.le
  · rw [mul_eq_zero, or_iff_right hr.ne']
    constructor
    · intro h
      have h2 := InnerProductGeometry.cos_angle (onSphere lon1 lat1) (onSphere lon2 lat2)
      rw [h, norm_onSphere, norm_onSphere, Real.cos_zero] at h2
      rw [mul_one, div_one] at h2
      exact (inner_eq_one_iff_of_norm_eq_one (norm_onSphere _ _) (norm_onSphere _ _)).mp h2.symm
    · intro h
      rw [h]
      exact InnerProductGeometry.angle_self (by rw [← norm_ne_zero_iff, norm_onSphere]; norm_num)
  · rw [← mul_add]
    exact mul_le_mul_of_nonneg_left (InnerProductGeometry.angle_le_angle_add_angle _ _ _) hr.le

/-- A quarter of the way round along the equator, and from the equator to the pole. -/
example : sphereDistance 0 0 (Real.pi / 2) 0 1 = Real.pi / 2 ∧ sphereDistance 0 0 0 (Real.pi / 2) 1 = Real.pi / 2 := by
  constructor <;> rw [C87_great_circle, centralAngle_eq] <;> simp

/-! ### C88 -/

/-- Length in the horizontal plane. -/
noncomputable def V3.r (v : V3) : ℝ := Real.sqrt (v.x ^ 2 + v.y ^ 2)

/-- Spec: length of a vector. -/
noncomputable def V3.norm (v : V3) : ℝ := Real.sqrt (v.x ^ 2 + v.y ^ 2 + v.z ^ 2)

theorem r_sq (v : V3) : v.r ^ 2 = v.x ^ 2 + v.y ^ 2 := Real.sq_sqrt (by positivity)
theorem norm_sq (v : V3) : v.norm ^ 2 = v.r ^ 2 + v.z ^ 2 := by
  rw [r_sq]; exact Real.sq_sqrt (by positivity)
theorem r_nonneg (v : V3) : 0 ≤ v.r := Real.sqrt_nonneg _
theorem norm_nonneg' (v : V3) : 0 ≤ v.norm := Real.sqrt_nonneg _

/-- The colatitude computed by `cart2sph`. -/
noncomputable def thetaOf (eps : ℝ) (v : V3) : ℝ :=
  open Classical in if eps < |v.z| then Real.arctan (v.r / v.z) else Real.arccos (v.z / v.norm)

/-- The longitude computed by `cart2sph`, in radians. -/
noncomputable def lambdaOf (eps : ℝ) (v : V3) : ℝ :=
  open Classical in if eps < |v.x| then atan2 v.y v.x else Real.arcsin (v.y / v.r)

theorem r_pos_of_x {eps : ℝ} (he : 0 ≤ eps) {v : V3} (h : eps < |v.x|) : 0 < v.r := by
  have hx : v.x ≠ 0 := by
    intro h'; rw [h', abs_zero] at h; linarith
  exact Real.sqrt_pos.mpr (by positivity)

theorem norm_pos_of_r {v : V3} (h : 0 < v.r) : 0 < v.norm := by
  have := norm_sq v
  have := norm_nonneg' v
  by_contra hc
  have : v.norm = 0 := by linarith
  rw [this] at *
  nlinarith [sq_nonneg v.z]

/-- `cart2sph` succeeds off the axis. -/
theorem cart2sph_ok {eps : ℝ} {v : V3} (hr : 0 < v.r) : cart2sph eps v
    = .ok (lambdaOf eps v * 180 / Real.pi, (1 / 2 * Real.pi - thetaOf eps v) * 180 / Real.pi) := by
  have hn := norm_pos_of_r hr
  unfold cart2sph
  dsimp only
  rw [if_neg (fun h => absurd h.2 hn.ne'), if_neg (fun h => absurd h.2 hr.ne')]
  rfl

/-- `sph2cart` after `cart2sph`. -/
theorem sph2cart_polar (l t : ℝ) : sph2cart (l * 180 / Real.pi) ((1 / 2 * Real.pi - t) * 180 / Real.pi)
    = ⟨Real.sin t * Real.cos l, Real.sin t * Real.sin l, Real.cos t⟩ := by
  have hpi := Real.pi_ne_zero
  have e1 : Real.pi * (90 - (1 / 2 * Real.pi - t) * 180 / Real.pi) / 180 = t := by field_simp; ring
  have e2 : Real.pi * (l * 180 / Real.pi) / 180 = l := by field_simp
  unfold sph2cart
  dsimp only
  rw [e1, e2]

theorem arctan_ratio {r z n : ℝ} (hz : z ≠ 0) (hn : 0 < n) (h : n ^ 2 = r ^ 2 + z ^ 2) :
    Real.sin (Real.arctan (r / z)) = (if 0 < z then r / n else -(r / n)) ∧
    Real.cos (Real.arctan (r / z)) = |z| / n := by
  have hz2 : 0 < |z| := abs_pos.mpr hz
  have e : Real.sqrt (1 + (r / z) ^ 2) = n / |z| := by
    have : 1 + (r / z) ^ 2 = (n / |z|) ^ 2 := by
      rw [div_pow, div_pow, sq_abs, h]; field_simp; ring
    rw [this]; exact Real.sqrt_sq (by positivity)
  rw [Real.sin_arctan, Real.cos_arctan, e]
  constructor
  · by_cases hp : 0 < z
    · rw [if_pos hp, abs_of_pos hp]; field_simp
    · rw [if_neg hp, abs_of_nonpos (by linarith)]; field_simp
  · field_simp

theorem theta_north {eps : ℝ} (he : 0 ≤ eps) {v : V3} (hr : 0 < v.r) (hz : -eps ≤ v.z) :
    Real.sin (thetaOf eps v) = v.r / v.norm ∧ Real.cos (thetaOf eps v) = v.z / v.norm ∧
    0 ≤ thetaOf eps v ∧ thetaOf eps v ≤ Real.pi := by
  have hn := norm_pos_of_r hr
  have hq := norm_sq v
  have hpi := Real.pi_pos
  unfold thetaOf
  by_cases h : eps < |v.z|
  · have hz0 : 0 < v.z := by
      rcases lt_abs.mp h with h1 | h1
      · linarith
      · linarith
    rw [if_pos h]
    obtain ⟨h1, h2⟩ := arctan_ratio hz0.ne' hn hq
    rw [if_pos hz0] at h1
    rw [abs_of_pos hz0] at h2
    refine ⟨h1, h2, Real.arctan_nonneg.mpr (by positivity), ?_⟩
    have := Real.arctan_lt_pi_div_two (v.r / v.z)
    linarith
  · rw [if_neg h]
    have h1 : -1 ≤ v.z / v.norm := by rw [le_div_iff₀ hn]; nlinarith
    have h2 : v.z / v.norm ≤ 1 := by rw [div_le_iff₀ hn]; nlinarith
    refine ⟨?_, Real.cos_arccos h1 h2, Real.arccos_nonneg _, Real.arccos_le_pi _⟩
    rw [Real.sin_arccos]
    have : 1 - (v.z / v.norm) ^ 2 = (v.r / v.norm) ^ 2 := by
      rw [div_pow, div_pow, hq]
      have : v.r ^ 2 + v.z ^ 2 ≠ 0 := by rw [← hq]; positivity
      field_simp; ring
    rw [this]; exact Real.sqrt_sq (by positivity)

theorem theta_south {eps : ℝ} (he : 0 ≤ eps) {v : V3} (hr : 0 < v.r) (hz : v.z < -eps) :
    Real.sin (thetaOf eps v) = -(v.r / v.norm) ∧ Real.cos (thetaOf eps v) = -(v.z / v.norm) ∧
    thetaOf eps v < 0 := by
  have hn := norm_pos_of_r hr
  have hq := norm_sq v
  have hz0 : v.z < 0 := by linarith
  unfold thetaOf
  rw [if_pos (lt_abs.mpr (Or.inr (by linarith)))]
  obtain ⟨h1, h2⟩ := arctan_ratio hz0.ne hn hq
  rw [if_neg (by linarith)] at h1
  rw [abs_of_neg hz0] at h2
  refine ⟨h1, by rw [h2]; ring, Real.arctan_lt_zero.mpr (div_neg_of_pos_of_neg hr hz0)⟩

theorem lambda_ok {eps : ℝ} {v : V3} (hr : 0 < v.r) (hx : eps < |v.x| ∨ 0 ≤ v.x) :
    v.r * Real.cos (lambdaOf eps v) = v.x ∧ v.r * Real.sin (lambdaOf eps v) = v.y ∧
    -Real.pi < lambdaOf eps v ∧ lambdaOf eps v ≤ Real.pi := by
  have hpi := Real.pi_pos
  have hq := r_sq v
  unfold lambdaOf
  by_cases h : eps < |v.x|
  · rw [if_pos h]
    exact ⟨atan2_cos v.y v.x, atan2_sin v.y v.x, atan2_mem v.y v.x⟩
  · rw [if_neg h]
    have hx0 : 0 ≤ v.x := hx.resolve_left h
    have h1 : -1 ≤ v.y / v.r := by rw [le_div_iff₀ hr]; nlinarith
    have h2 : v.y / v.r ≤ 1 := by rw [div_le_iff₀ hr]; nlinarith
    have h3 : Real.cos (Real.arcsin (v.y / v.r)) = v.x / v.r := by
      rw [Real.cos_arcsin]
      have : 1 - (v.y / v.r) ^ 2 = (v.x / v.r) ^ 2 := by
        rw [div_pow, div_pow, hq]
        have : v.x ^ 2 + v.y ^ 2 ≠ 0 := by rw [← hq]; positivity
        field_simp; ring
      rw [this]; exact Real.sqrt_sq (by positivity)
    refine ⟨by rw [h3]; field_simp, by rw [Real.sin_arcsin h1 h2]; field_simp, ?_, ?_⟩
    · have := Real.neg_pi_div_two_le_arcsin (v.y / v.r); linarith
    · have := Real.arcsin_le_pi_div_two (v.y / v.r); linarith

/-- Spec: the two vectors point the same way, as `p` has length one. -/
def PointsAlong (p v : V3) : Prop := v.norm * p.x = v.x ∧ v.norm * p.y = v.y ∧ v.norm * p.z = v.z

/-- C88, partial (only for vectors on the northern side, and not close to longitude 90 or -90 on the far side).  The longitude
and latitude computed for a vector off the axis are in the usual ranges, and the position they describe lies in the direction
of the vector. -/
theorem C88_direction_partial {eps : ℝ} (he : 0 ≤ eps) (v : V3) (hr : v.x ≠ 0 ∨ v.y ≠ 0) (hz : -eps ≤ v.z)
    (hx : eps < |v.x| ∨ 0 ≤ v.x) :
    ∃ lon lat, cart2sph eps v = .ok (lon, lat) ∧ -180 < lon ∧ lon ≤ 180 ∧ -90 ≤ lat ∧ lat ≤ 90 ∧
      PointsAlong (sph2cart lon lat) v := by
  have hr : 0 < v.r := by
    apply Real.sqrt_pos.mpr
    rcases hr with h | h <;> positivity
  have hn := norm_pos_of_r hr
  have hpi := Real.pi_pos
  obtain ⟨t1, t2, t3, t4⟩ := theta_north he hr hz
  obtain ⟨l1, l2, l3, l4⟩ := lambda_ok hr hx
  refine ⟨_, _, cart2sph_ok hr, ?_, ?_, ?_, ?_, ?_⟩
  · rw [lt_div_iff₀ hpi]; nlinarith
  · rw [div_le_iff₀ hpi]; nlinarith
  · rw [le_div_iff₀ hpi]; nlinarith
  · rw [div_le_iff₀ hpi]; nlinarith
  · rw [sph2cart_polar]
    refine ⟨?_, ?_, ?_⟩
    · simp only [t1]; rw [← l1]; field_simp
    · simp only [t1]; rw [← l2]; field_simp
    · simp only [t2]; field_simp

theorem sph2cart_eq (lon lat : ℝ) : sph2cart lon lat =
    ⟨Real.cos (Real.pi * lat / 180) * Real.cos (Real.pi * lon / 180),
     Real.cos (Real.pi * lat / 180) * Real.sin (Real.pi * lon / 180), Real.sin (Real.pi * lat / 180)⟩ := by
  have e : Real.pi * (90 - lat) / 180 = Real.pi / 2 - Real.pi * lat / 180 := by ring
  unfold sph2cart
  dsimp only
  rw [e, Real.sin_pi_div_two_sub, Real.cos_pi_div_two_sub]

theorem sph2cart_r (lon lat : ℝ) : (sph2cart lon lat).r ^ 2 = Real.cos (Real.pi * lat / 180) ^ 2 := by
  rw [r_sq, sph2cart_eq]
  have := Real.sin_sq_add_cos_sq (Real.pi * lon / 180)
  linear_combination Real.cos (Real.pi * lat / 180) ^ 2 * this

theorem sph2cart_norm (lon lat : ℝ) : (sph2cart lon lat).norm = 1 := by
  have h : (sph2cart lon lat).norm ^ 2 = 1 := by
    rw [norm_sq, sph2cart_r, sph2cart_eq]
    have := Real.sin_sq_add_cos_sq (Real.pi * lat / 180)
    linarith
  have := norm_nonneg' (sph2cart lon lat)
  nlinarith

/-- C88, partial (northern hemisphere).  Converting a position to Cartesian coordinates and back gives the same longitude and
latitude. -/
theorem C88_round_trip_partial {eps : ℝ} (he : 0 ≤ eps) (lon lat : ℝ) (h1 : -180 < lon) (h2 : lon ≤ 180) (h3 : 0 ≤ lat)
    (h4 : lat < 90) (hx : eps < |(sph2cart lon lat).x| ∨ |lon| ≤ 90) :
    cart2sph eps (sph2cart lon lat) = .ok (lon, lat) := by
  have hpi := Real.pi_pos
  have hc : 0 < Real.cos (Real.pi * lat / 180) := Real.cos_pos_of_mem_Ioo ⟨by nlinarith, by nlinarith⟩
  have hr : 0 < (sph2cart lon lat).r := by
    have := sph2cart_r lon lat
    have h := r_nonneg (sph2cart lon lat)
    rcases h.lt_or_eq with h | h
    · exact h
    · rw [← h] at this; nlinarith
  have hr' : (sph2cart lon lat).x ≠ 0 ∨ (sph2cart lon lat).y ≠ 0 := by
    by_contra hcon
    push Not at hcon
    unfold V3.r at hr
    rw [hcon.1, hcon.2] at hr
    simp at hr
  have hx' : eps < |(sph2cart lon lat).x| ∨ 0 ≤ (sph2cart lon lat).x := by
    rcases hx with h | h
    · exact Or.inl h
    · right
      rw [sph2cart_eq]
      have hb := abs_le.mp h
      exact mul_nonneg hc.le (Real.cos_nonneg_of_mem_Icc ⟨by nlinarith [hb.1], by nlinarith [hb.2]⟩)
  have hz : -eps ≤ (sph2cart lon lat).z := by
    rw [sph2cart_eq]
    have : 0 ≤ Real.sin (Real.pi * lat / 180) := Real.sin_nonneg_of_nonneg_of_le_pi (by positivity) (by nlinarith)
    simp only; linarith
  obtain ⟨lon', lat', hok, a1, a2, a3, a4, ax, ay, az⟩ := C88_direction_partial he _ hr' hz hx'
  rw [sph2cart_norm, one_mul] at ax ay az
  rw [sph2cart_eq, sph2cart_eq] at ax ay az
  simp only at ax ay az
  have hlat : lat' = lat := by
    have : Real.pi * lat' / 180 = Real.pi * lat / 180 :=
      Real.injOn_sin ⟨by nlinarith, by nlinarith⟩ ⟨by nlinarith, by nlinarith⟩ az
    have h : Real.pi * (lat' - lat) = 0 := by linarith
    rcases mul_eq_zero.mp h with h | h
    · exact absurd h hpi.ne'
    · linarith
  subst hlat
  have ex := mul_left_cancel₀ hc.ne' ax
  have ey := mul_left_cancel₀ hc.ne' ay
  have hlon : lon' = lon := by
    have e1 := atan2_polar one_pos (show -Real.pi < Real.pi * lon / 180 by nlinarith) (by nlinarith : Real.pi * lon / 180 ≤ Real.pi)
    have e2 := atan2_polar one_pos (show -Real.pi < Real.pi * lon' / 180 by nlinarith) (by nlinarith : Real.pi * lon' / 180 ≤ Real.pi)
    rw [ex, ey] at e2
    have h : Real.pi * (lon' - lon) = 0 := by linarith
    rcases mul_eq_zero.mp h with h | h
    · exact absurd h hpi.ne'
    · linarith
  rw [hok, hlon]

/-- **C88 is violated on the whole southern side**: the latitude computed for any vector below the horizontal plane (by more than
the tolerance) is greater than 90. -/
theorem C88_violated_south {eps : ℝ} (he : 0 ≤ eps) (v : V3) (hr : v.x ≠ 0 ∨ v.y ≠ 0) (hz : v.z < -eps) :
    ∃ lon lat, cart2sph eps v = .ok (lon, lat) ∧ 90 < lat := by
  have hr : 0 < v.r := by
    apply Real.sqrt_pos.mpr
    rcases hr with h | h <;> positivity
  have hpi := Real.pi_pos
  refine ⟨_, _, cart2sph_ok hr, ?_⟩
  have := (theta_south he hr hz).2.2
  rw [lt_div_iff₀ hpi]; nlinarith

/-- **C88 is violated at the poles**, for which `cart2sph` divides by zero. -/
theorem C88_violated_pole {eps : ℝ} (he : 0 ≤ eps) (lon : ℝ) : cart2sph eps (sph2cart lon 90) = .error .zeroDivision := by
  have e : sph2cart lon 90 = ⟨0, 0, 1⟩ := by unfold sph2cart; simp
  rw [e]
  unfold cart2sph
  have h1 : ¬ eps < |(0 : ℝ)| := by rw [abs_zero]; linarith
  by_cases h : eps < |(1 : ℝ)| <;> simp [h, h1, he]

/-- **C88 is violated close to longitudes 90 and -90 on the far side**: a small negative x comes back positive. -/
theorem C88_violated_west {eps : ℝ} (he : 0 ≤ eps) (v : V3) (hx : v.x < 0) (hx' : |v.x| ≤ eps) (hz : -eps ≤ v.z) :
    ∃ lon lat, cart2sph eps v = .ok (lon, lat) ∧ 0 < (sph2cart lon lat).x := by
  have hr : 0 < v.r := Real.sqrt_pos.mpr (by have := hx.ne; positivity)
  have hn := norm_pos_of_r hr
  refine ⟨_, _, cart2sph_ok hr, ?_⟩
  rw [sph2cart_polar]
  simp only [(theta_north he hr hz).1]
  apply mul_pos (by positivity)
  unfold lambdaOf
  rw [if_neg (not_lt.mpr hx'), Real.cos_arcsin]
  apply Real.sqrt_pos.mpr
  have hq := r_sq v
  rw [div_pow, sub_pos, div_lt_one (by positivity), hq]
  have := hx.ne
  nlinarith [sq_pos_of_pos (neg_pos.mpr hx)]

example : cart2sph (1 / 10 ^ 4) (sph2cart 30 60) = .ok (30, 60) :=
  C88_round_trip_partial (by norm_num) 30 60 (by norm_num) (by norm_num) (by norm_num) (by norm_num) (Or.inr (by norm_num [abs_of_pos]))

/-! ### C89 -/

/-- Spec: the position lies on the great circle through the ends of the segment (the three vectors are coplanar). -/
def OnGreatCircle (s : Seg) (p : ℝ × ℝ) : Prop :=
  let u := sph2cart s.a.1 s.a.2
  let v := sph2cart s.b.1 s.b.2
  let w := sph2cart p.1 p.2
  w.x * (u.y * v.z - u.z * v.y) + w.y * (u.z * v.x - u.x * v.z) + w.z * (u.x * v.y - u.y * v.x) = 0

/-- Dot product. -/
def V3.dot (u v : V3) : ℝ := u.x * v.x + u.y * v.y + u.z * v.z

theorem onGreatCircle_iff (s : Seg) (p : ℝ × ℝ) : OnGreatCircle s p ↔ (sph2cart p.1 p.2).dot (eulerpole s) = 0 := Iff.rfl

theorem cross_dot_left (u v : V3) : (cross u v).dot u = 0 := by simp only [V3.dot, cross]; ring
theorem cross_dot_right (u v : V3) : (cross u v).dot v = 0 := by simp only [V3.dot, cross]; ring

theorem sph2cart_anti (lon lat : ℝ) (k : ℤ) : sph2cart (lon + 180 + 360 * k) (-lat)
    = ⟨-(sph2cart lon lat).x, -(sph2cart lon lat).y, -(sph2cart lon lat).z⟩ := by
  have e1 : Real.pi * (lon + 180 + 360 * k) / 180 = Real.pi * lon / 180 + Real.pi + k * (2 * Real.pi) := by ring
  have e2 : Real.pi * -lat / 180 = -(Real.pi * lat / 180) := by ring
  rw [sph2cart_eq, sph2cart_eq, e1, e2, Real.cos_add_int_mul_two_pi, Real.sin_add_int_mul_two_pi, Real.cos_add_pi,
    Real.sin_add_pi, Real.cos_neg, Real.sin_neg]
  simp

/-- What an accepted intersection is: the computed direction or its opposite, within the range of both segments. -/
theorem intersection_ok {s1 s2 : Seg} {p : ℝ × ℝ} (h : intersection s1 s2 = .ok p) :
    ∃ lon lat, cart2sph (1 / 10 ^ 4) (cross (eulerpole s1) (eulerpole s2)) = .ok (lon, lat) ∧
      (p = (lon, lat) ∨ p = (pyModR (lon + 360) 360 - 180, -lat)) ∧ inRange p s1 ∧ inRange p s2 := by
  unfold intersection at h
  cases hc : cart2sph (1 / 10 ^ 4) (cross (eulerpole s1) (eulerpole s2)) with
  | error e => rw [hc] at h; cases h
  | ok q =>
    rw [hc] at h
    obtain ⟨lon, lat⟩ := q
    dsimp only at h
    refine ⟨lon, lat, rfl, ?_⟩
    by_cases h1 : inRange (lon, lat) s1 ∧ inRange (lon, lat) s2
    · rw [if_pos h1] at h; cases h; exact ⟨Or.inl rfl, h1⟩
    · rw [if_neg h1] at h
      by_cases h2 : inRange (pyModR (lon + 360) 360 - 180, -lat) s1 ∧ inRange (pyModR (lon + 360) 360 - 180, -lat) s2
      · rw [if_pos h2] at h; cases h; exact ⟨Or.inr rfl, h2⟩
      · rw [if_neg h2] at h; cases h

theorem perp_of_polar {v : V3} {u : V3} (hr : 0 < v.r) (hx : 1 / 10 ^ 4 < |v.x| ∨ 0 ≤ v.x) (hu : v.dot u = 0) {lon lat : ℝ}
    (h : cart2sph (1 / 10 ^ 4) v = .ok (lon, lat)) : (sph2cart lon lat).dot u = 0 := by
  have hn := norm_pos_of_r hr
  rw [cart2sph_ok hr] at h
  cases h
  rw [sph2cart_polar]
  obtain ⟨l1, l2, -, -⟩ := lambda_ok hr hx
  unfold V3.dot at *
  simp only
  by_cases hz : -(1 / 10 ^ 4) ≤ v.z
  · obtain ⟨t1, t2, -, -⟩ := theta_north (by norm_num) hr hz
    rw [t1, t2]
    have : v.r / v.norm * Real.cos (lambdaOf (1 / 10 ^ 4) v) * u.x + v.r / v.norm * Real.sin (lambdaOf (1 / 10 ^ 4) v) * u.y
        + v.z / v.norm * u.z = (v.x * u.x + v.y * u.y + v.z * u.z) / v.norm := by
      rw [← l1, ← l2]; field_simp
    rw [this, hu, zero_div]
  · obtain ⟨t1, t2, -⟩ := theta_south (by norm_num) hr (not_le.mp hz)
    rw [t1, t2]
    have : -(v.r / v.norm) * Real.cos (lambdaOf (1 / 10 ^ 4) v) * u.x + -(v.r / v.norm) * Real.sin (lambdaOf (1 / 10 ^ 4) v) * u.y
        + -(v.z / v.norm) * u.z = -((v.x * u.x + v.y * u.y + v.z * u.z) / v.norm) := by
      rw [← l1, ← l2]; field_simp; ring
    rw [this, hu, zero_div, neg_zero]

theorem r_pos_of_ok {eps : ℝ} (he : 0 ≤ eps) {v : V3} {p : ℝ × ℝ} (h : cart2sph eps v = .ok p) : 0 < v.r := by
  by_contra hc
  have h0 : v.r = 0 := le_antisymm (not_lt.mp hc) (r_nonneg v)
  have hx : ¬ eps < |v.x| := fun hx => hc (r_pos_of_x he hx)
  unfold cart2sph at h
  dsimp only at h
  have h0' : Real.sqrt (v.x ^ 2 + v.y ^ 2) = 0 := h0
  by_cases h1 : ¬ eps < |v.z| ∧ Real.sqrt (v.x ^ 2 + v.y ^ 2 + v.z ^ 2) = 0
  · rw [if_pos h1] at h; cases h
  · rw [if_neg h1, if_pos ⟨hx, h0'⟩] at h; cases h

/-- C89, partial (not for crossings close to longitude 90 or -90 on the far side, and — see `C89_violated_south` — the latitude
may be beyond the pole).  A reported crossing of two segments on the sphere lies on both great circles. -/
theorem C89_on_both_partial (s1 s2 : Seg) (p : ℝ × ℝ) (h : intersection s1 s2 = .ok p)
    (hx : 1 / 10 ^ 4 < |(cross (eulerpole s1) (eulerpole s2)).x| ∨ 0 ≤ (cross (eulerpole s1) (eulerpole s2)).x) :
    OnGreatCircle s1 p ∧ OnGreatCircle s2 p := by
  obtain ⟨lon, lat, hc, hp, -, -⟩ := intersection_ok h
  have hr := r_pos_of_ok (by norm_num) hc
  rw [onGreatCircle_iff, onGreatCircle_iff]
  have h1 := perp_of_polar hr hx (cross_dot_left _ _) hc
  have h2 := perp_of_polar hr hx (cross_dot_right _ _) hc
  rcases hp with hp | hp
  · rw [hp]; exact ⟨h1, h2⟩
  · obtain ⟨k, hk⟩ := pyModR_cong (lon + 360) (360 : ℝ)
    rw [hp]
    simp only
    have e : pyModR (lon + 360) 360 - 180 = lon + 180 + 360 * ((k : ℤ) : ℝ) := by rw [hk]; ring
    rw [e, sph2cart_anti]
    unfold V3.dot at *
    simp only
    constructor <;> linarith

/-- Spec: going east from one meridian to another by at most half a turn, the longitude lies between. -/
def LonWithin (lon lonA lonB : ℝ) : Prop :=
  ∃ (d e : ℝ) (i j : ℤ), (lonB = lonA + d + 360 * i ∧ 0 ≤ d ∧ d ≤ 180 ∧ lon = lonA + e + 360 * j ∧ 0 ≤ e ∧ e ≤ d) ∨
    (lonA = lonB + d + 360 * i ∧ 0 ≤ d ∧ d < 180 ∧ lon = lonB + e + 360 * j ∧ 0 ≤ e ∧ e ≤ d)

theorem reduce_cong (d : ℝ) : ∃ k : ℤ, reduceDeg d = d + 360 * k := by
  obtain ⟨k, hk⟩ := pyModR_cong (d + 180) (360 : ℝ)
  exact ⟨k, by unfold reduceDeg; rw [hk]; ring⟩

theorem reduce_mem (d : ℝ) : -180 ≤ reduceDeg d ∧ reduceDeg d < 180 := by
  have := pyModR_mem (d + 180) (show (0 : ℝ) < 360 by norm_num)
  unfold reduceDeg
  constructor <;> linarith [this.1, this.2]

theorem unroll_cong (d : ℝ) : ∃ k : ℤ, unrollDeg d = d + 360 * k := by
  obtain ⟨k, hk⟩ := pyModR_cong d (360 : ℝ)
  exact ⟨k, by unfold unrollDeg; rw [hk]⟩

theorem within_of_isbetween {x a b : ℝ} (h : isbetween x (unrollDeg a) (unrollDeg b)) : LonWithin x a b := by
  obtain ⟨ka, ha⟩ := unroll_cong a
  obtain ⟨kb, hb⟩ := unroll_cong b
  unfold isbetween at h
  by_cases hc : 180 < unrollDeg (unrollDeg b - unrollDeg a)
  · rw [if_pos hc] at h
    obtain ⟨k1, h1⟩ := reduce_cong (x - unrollDeg b)
    obtain ⟨k2, h2⟩ := reduce_cong (unrollDeg a - unrollDeg b)
    refine ⟨reduceDeg (unrollDeg a - unrollDeg b), reduceDeg (x - unrollDeg b), kb - ka - k2, kb - k1, Or.inr
      ⟨?_, h.1.trans h.2, (reduce_mem _).2, ?_, h.1, h.2⟩⟩
    · rw [h2, ha, hb]; push_cast; ring
    · rw [h1, hb]; push_cast; ring
  · rw [if_neg hc] at h
    obtain ⟨k1, h1⟩ := reduce_cong (x - unrollDeg a)
    obtain ⟨k2, h2⟩ := reduce_cong (unrollDeg b - unrollDeg a)
    refine ⟨reduceDeg (unrollDeg b - unrollDeg a), reduceDeg (x - unrollDeg a), ka - kb - k2, ka - k1, Or.inl
      ⟨?_, h.1.trans h.2, (reduce_mem _).2.le, ?_, h.1, h.2⟩⟩
    · rw [h2, ha, hb]; push_cast; ring
    · rw [h1, ha]; push_cast; ring

/-- C89, partial (segments that do not follow a meridian).  A reported crossing has a longitude between those of the ends of both
segments, going the short way round. -/
theorem C89_between_partial (s1 s2 : Seg) (p : ℝ × ℝ) (h : intersection s1 s2 = .ok p)
    (h1 : 1 / 10 ^ 8 ≤ |reduceDeg (unrollDeg s1.b.1 - unrollDeg s1.a.1)|)
    (h2 : 1 / 10 ^ 8 ≤ |reduceDeg (unrollDeg s2.b.1 - unrollDeg s2.a.1)|) :
    LonWithin p.1 s1.a.1 s1.b.1 ∧ LonWithin p.1 s2.a.1 s2.b.1 := by
  obtain ⟨lon, lat, -, -, r1, r2⟩ := intersection_ok h
  unfold inRange at r1 r2
  dsimp only at r1 r2
  rw [if_neg (fun h => absurd h.1 (not_lt.mpr h1))] at r1
  rw [if_neg (fun h => absurd h.1 (not_lt.mpr h2))] at r2
  exact ⟨within_of_isbetween r1, within_of_isbetween r2⟩

theorem reduce_zero : reduceDeg (0 : ℝ) = 0 := by
  unfold reduceDeg
  rw [pyModR_self (by norm_num) (by norm_num)]; ring

theorem inRange_meridian {q : ℝ × ℝ} {s : Seg} (hm : s.a.1 = s.b.1) (hne : s.a.2 ≠ s.b.2) (h : inRange q s) :
    s.a.2 ≤ q.2 ∧ q.2 ≤ s.b.2 := by
  unfold inRange at h
  dsimp only at h
  rw [hm, sub_self, reduce_zero, abs_zero, if_pos ⟨by norm_num, abs_pos.mpr (sub_ne_zero.mpr hne)⟩] at h
  exact h.2

/-- C89, partial: a crossing reported for a segment along a meridian lies between the latitudes of its ends. -/
theorem C89_meridian_partial (s1 s2 : Seg) (p : ℝ × ℝ) (h : intersection s1 s2 = .ok p) :
    (s1.a.1 = s1.b.1 → s1.a.2 ≠ s1.b.2 → s1.a.2 ≤ p.2 ∧ p.2 ≤ s1.b.2) ∧
    (s2.a.1 = s2.b.1 → s2.a.2 ≠ s2.b.2 → s2.a.2 ≤ p.2 ∧ p.2 ≤ s2.b.2) := by
  obtain ⟨lon, lat, -, -, r1, r2⟩ := intersection_ok h
  exact ⟨fun hm hn => inRange_meridian hm hn r1, fun hm hn => inRange_meridian hm hn r2⟩

/-- C90 is false for segments that run southwards along a meridian: no crossing is ever reported. -/
theorem C90_violated_southward (s1 s2 : Seg) (hm : s1.a.1 = s1.b.1) (hs : s1.b.2 < s1.a.2) (p : ℝ × ℝ) :
    intersection s1 s2 ≠ .ok p ∧ intersection s2 s1 ≠ .ok p := by
  constructor
  · intro h
    have := (C89_meridian_partial s1 s2 p h).1 hm hs.ne'
    linarith [this.1, this.2]
  · intro h
    have := (C89_meridian_partial s2 s1 p h).2 hm hs.ne'
    linarith [this.1, this.2]

/-- A segment on the meridian 10 from latitude 20 to -20 and the equator between 0 and 20, which it crosses. -/
example (p : ℝ × ℝ) : intersection ⟨(10, 20), (10, -20)⟩ ⟨(0, 0), (20, 0)⟩ ≠ .ok p :=
  (C90_violated_southward ⟨(10, 20), (10, -20)⟩ ⟨(0, 0), (20, 0)⟩ rfl (by norm_num) p).1

/-! The two diagonals of a quadrangle in the southern hemisphere. -/

/-- From (-45, -60) to (45, -30). -/
noncomputable def diag1 : Seg := ⟨(-45, -60), (45, -30)⟩
/-- From (-45, -30) to (45, -60). -/
noncomputable def diag2 : Seg := ⟨(-45, -30), (45, -60)⟩

theorem cart_a : sph2cart (-45) (-60) = ⟨1 / 2 * (Real.sqrt 2 / 2), -(1 / 2 * (Real.sqrt 2 / 2)), -(Real.sqrt 3 / 2)⟩ := by
  have e1 : Real.pi * (-45) / 180 = -(Real.pi / 4) := by ring
  have e2 : Real.pi * (-60) / 180 = -(Real.pi / 3) := by ring
  rw [sph2cart_eq, e1, e2]
  simp only [Real.cos_neg, Real.sin_neg, Real.cos_pi_div_three, Real.sin_pi_div_three, Real.cos_pi_div_four, Real.sin_pi_div_four]
  simp

theorem cart_b : sph2cart 45 (-30) = ⟨Real.sqrt 3 / 2 * (Real.sqrt 2 / 2), Real.sqrt 3 / 2 * (Real.sqrt 2 / 2), -(1 / 2)⟩ := by
  have e1 : Real.pi * 45 / 180 = Real.pi / 4 := by ring
  have e2 : Real.pi * (-30) / 180 = -(Real.pi / 6) := by ring
  rw [sph2cart_eq, e1, e2]
  simp only [Real.cos_neg, Real.sin_neg, Real.cos_pi_div_six, Real.sin_pi_div_six, Real.cos_pi_div_four, Real.sin_pi_div_four]

theorem cart_c : sph2cart (-45) (-30) = ⟨Real.sqrt 3 / 2 * (Real.sqrt 2 / 2), -(Real.sqrt 3 / 2 * (Real.sqrt 2 / 2)), -(1 / 2)⟩ := by
  have e1 : Real.pi * (-45) / 180 = -(Real.pi / 4) := by ring
  have e2 : Real.pi * (-30) / 180 = -(Real.pi / 6) := by ring
  rw [sph2cart_eq, e1, e2]
  simp only [Real.cos_neg, Real.sin_neg, Real.cos_pi_div_six, Real.sin_pi_div_six, Real.cos_pi_div_four, Real.sin_pi_div_four]
  simp

theorem cart_d : sph2cart 45 (-60) = ⟨1 / 2 * (Real.sqrt 2 / 2), 1 / 2 * (Real.sqrt 2 / 2), -(Real.sqrt 3 / 2)⟩ := by
  have e1 : Real.pi * 45 / 180 = Real.pi / 4 := by ring
  have e2 : Real.pi * (-60) / 180 = -(Real.pi / 3) := by ring
  rw [sph2cart_eq, e1, e2]
  simp only [Real.cos_neg, Real.sin_neg, Real.cos_pi_div_three, Real.sin_pi_div_three, Real.cos_pi_div_four, Real.sin_pi_div_four]

theorem pole1 : eulerpole diag1 = ⟨Real.sqrt 2 / 2, -(Real.sqrt 2 / 4), Real.sqrt 3 / 4⟩ := by
  have h2 : Real.sqrt 2 ^ 2 = 2 := Real.sq_sqrt (by norm_num)
  have h3 : Real.sqrt 3 ^ 2 = 3 := Real.sq_sqrt (by norm_num)
  unfold eulerpole diag1
  simp only [cart_a, cart_b, cross]
  congr 1
  · linear_combination Real.sqrt 2 / 8 * h3
  · linear_combination -(Real.sqrt 2 / 8) * h3
  · linear_combination Real.sqrt 3 / 8 * h2

theorem pole2 : eulerpole diag2 = ⟨Real.sqrt 2 / 2, Real.sqrt 2 / 4, Real.sqrt 3 / 4⟩ := by
  have h2 : Real.sqrt 2 ^ 2 = 2 := Real.sq_sqrt (by norm_num)
  have h3 : Real.sqrt 3 ^ 2 = 3 := Real.sq_sqrt (by norm_num)
  unfold eulerpole diag2
  simp only [cart_c, cart_d, cross]
  congr 1
  · linear_combination Real.sqrt 2 / 8 * h3
  · linear_combination Real.sqrt 2 / 8 * h3
  · linear_combination Real.sqrt 3 / 8 * h2

theorem node21 : cross (eulerpole diag2) (eulerpole diag1) = ⟨Real.sqrt 2 * Real.sqrt 3 / 8, 0, -(1 / 2)⟩ := by
  have h2 : Real.sqrt 2 ^ 2 = 2 := Real.sq_sqrt (by norm_num)
  rw [pole1, pole2]
  simp only [cross]
  congr 1
  · ring
  · ring
  · linear_combination -(1 / 4) * h2

theorem reduce_val {d e : ℝ} (k : ℤ) (h : d = e + 360 * k) (h1 : -180 ≤ e) (h2 : e < 180) : reduceDeg d = e := by
  obtain ⟨j, hj⟩ := reduce_cong d
  have hm := reduce_mem d
  have h3 : ((k + j : ℤ) : ℝ) * 360 < 360 := by push_cast; linarith [hm.2]
  have h4 : -360 < ((k + j : ℤ) : ℝ) * 360 := by push_cast; linarith [hm.1]
  have h5 : ((k + j : ℤ) : ℝ) < 1 := by linarith
  have h6 : (-1 : ℝ) < ((k + j : ℤ) : ℝ) := by linarith
  have h7 : k + j < 1 := by exact_mod_cast h5
  have h8 : -1 < k + j := by exact_mod_cast h6
  have h9 : j = -k := by omega
  rw [hj, h, h9]; push_cast; ring

theorem unroll_val {d e : ℝ} (k : ℤ) (h : d = e + 360 * k) (h1 : 0 ≤ e) (h2 : e < 360) : unrollDeg d = e := by
  have := reduce_val (d := d - 180) (e := e - 180) k (by rw [h]; ring) (by linarith) (by linarith)
  unfold reduceDeg at this
  unfold unrollDeg
  rw [sub_add_cancel] at this
  linarith

theorem within_diag (lat la lb : ℝ) : inRange (0, lat) ⟨(-45, la), (45, lb)⟩ := by
  have u1 : unrollDeg (-45) = 315 := unroll_val (-1) (by norm_num) (by norm_num) (by norm_num)
  have u2 : unrollDeg 45 = 45 := unroll_val 0 (by norm_num) (by norm_num) (by norm_num)
  have r1 : reduceDeg (45 - 315) = 90 := reduce_val (-1) (by norm_num) (by norm_num) (by norm_num)
  have r2 : reduceDeg (0 - 315) = 45 := reduce_val (-1) (by norm_num) (by norm_num) (by norm_num)
  have u3 : unrollDeg (45 - 315) = 90 := unroll_val (-1) (by norm_num) (by norm_num) (by norm_num)
  unfold inRange
  dsimp only
  rw [u1, u2, r1, if_neg (fun h => by have := h.1; norm_num [abs_of_pos] at this)]
  unfold isbetween
  rw [u3, if_neg (by norm_num), r1, r2]
  norm_num

/-- **C89 is violated in the southern hemisphere**: the reported crossing of the segments from (-45, -30) to (45, -60) and from
(-45, -60) to (45, -30) has longitude 0 and a latitude greater than 90. -/
theorem C89_violated_south : ∃ lat, intersection diag2 diag1 = .ok (0, lat) ∧ 90 < lat := by
  have hx : (1 : ℝ) / 10 ^ 4 < Real.sqrt 2 * Real.sqrt 3 / 8 := by
    have h2 : (1 : ℝ) < Real.sqrt 2 := Real.lt_sqrt (by norm_num) |>.mpr (by norm_num)
    have h3 : (1 : ℝ) < Real.sqrt 3 := Real.lt_sqrt (by norm_num) |>.mpr (by norm_num)
    nlinarith
  have hxp : (0 : ℝ) < Real.sqrt 2 * Real.sqrt 3 / 8 := by positivity
  have hxx : (1 : ℝ) / 10 ^ 4 < |(⟨Real.sqrt 2 * Real.sqrt 3 / 8, 0, -(1 / 2)⟩ : V3).x| := by
    show (1 : ℝ) / 10 ^ 4 < |Real.sqrt 2 * Real.sqrt 3 / 8|
    rw [abs_of_pos hxp]; exact hx
  have hr := r_pos_of_x (by norm_num) hxx
  have hok := cart2sph_ok (eps := 1 / 10 ^ 4) hr
  have hl : lambdaOf (1 / 10 ^ 4) ⟨Real.sqrt 2 * Real.sqrt 3 / 8, 0, -(1 / 2)⟩ = 0 := by
    unfold lambdaOf
    rw [if_pos hxx]
    have := atan2_polar hxp (θ := 0) (by linarith [Real.pi_pos]) Real.pi_pos.le
    rw [Real.cos_zero, Real.sin_zero, mul_one, mul_zero] at this
    exact this
  have ht := (theta_south (eps := 1 / 10 ^ 4) (by norm_num) hr (by norm_num)).2.2
  rw [hl, zero_mul, zero_div] at hok
  refine ⟨(1 / 2 * Real.pi - thetaOf (1 / 10 ^ 4) ⟨Real.sqrt 2 * Real.sqrt 3 / 8, 0, -(1 / 2)⟩) * 180 / Real.pi, ?_, ?_⟩
  · unfold intersection
    rw [node21, hok]
    dsimp only
    rw [if_pos ⟨within_diag _ _ _, within_diag _ _ _⟩]
  · rw [lt_div_iff₀ Real.pi_pos]; nlinarith [Real.pi_pos]

/-- The same case meets the hypotheses of the partial theorems. -/
example : ∃ p, intersection diag2 diag1 = .ok p ∧
    (1 / 10 ^ 4 < |(cross (eulerpole diag2) (eulerpole diag1)).x| ∨ 0 ≤ (cross (eulerpole diag2) (eulerpole diag1)).x) ∧
    OnGreatCircle diag1 p ∧ OnGreatCircle diag2 p := by
  obtain ⟨lat, h, -⟩ := C89_violated_south
  have hx : 0 ≤ (cross (eulerpole diag2) (eulerpole diag1)).x := by rw [node21]; show (0 : ℝ) ≤ _; positivity
  obtain ⟨h1, h2⟩ := C89_on_both_partial _ _ _ h (Or.inr hx)
  exact ⟨_, h, Or.inr hx, h2, h1⟩

/-! ### C90 -/

theorem mapM_ok_forall {α β : Type} (f : α → Except Err β) : ∀ (l : List α) (r : List β), l.mapM f = .ok r →
    List.Forall₂ (fun a b => f a = .ok b) l r
  | [], r, h => by cases h; exact List.Forall₂.nil
  | a :: l, r, h => by
    rw [List.mapM_cons] at h
    cases ha : f a with
    | error e => rw [ha] at h; cases h
    | ok b =>
      rw [ha] at h
      cases hl : l.mapM f with
      | error e => simp only [hl] at h; cases h
      | ok r' =>
        simp only [hl] at h
        cases h
        exact List.Forall₂.cons ha (mapM_ok_forall f l r' hl)

theorem mapM_ok_of {α β : Type} (f : α → Except Err β) (g : α → β) : ∀ l : List α, (∀ a ∈ l, f a = .ok (g a)) →
    l.mapM f = .ok (l.map g)
  | [], _ => rfl
  | a :: l, h => by
    rw [List.mapM_cons, h a (by simp), mapM_ok_of f g l (fun b hb => h b (by simp [hb]))]
    rfl

/-- C90, partial: if every segment of the first line crosses every segment of the second, the crossings are reported, one for
each pair. -/
theorem C90_all_cross_partial (A B : List Seg) (p : Seg → Seg → ℝ × ℝ)
    (h : ∀ a ∈ A, ∀ b ∈ B, intersection a b = .ok (p a b)) :
    ∃ l, allIntersections A B = .ok l ∧ ∀ q, q ∈ l ↔ ∃ a ∈ A, ∃ b ∈ B, q = p a b := by
  refine ⟨_, mapM_ok_of _ (fun x => p x.1 x.2) _ ?_, ?_⟩
  · intro x hx
    obtain ⟨a, ha, hx⟩ := List.mem_flatMap.mp hx
    obtain ⟨b, hb, rfl⟩ := List.mem_map.mp hx
    exact h a ha b hb
  · intro q
    simp only [List.mem_map, List.mem_flatMap]
    constructor
    · rintro ⟨x, ⟨a, ha, b, hb, rfl⟩, rfl⟩; exact ⟨a, ha, b, hb, rfl⟩
    · rintro ⟨a, ha, b, hb, rfl⟩; exact ⟨_, ⟨a, ha, b, hb, rfl⟩, rfl⟩

/-- **C90 is violated for any two lines with a pair of segments that do not cross**: the whole query fails, whatever the other
pairs do. -/
theorem C90_violated_one_miss (A B : List Seg) (a b : Seg) (ha : a ∈ A) (hb : b ∈ B) (e : Err)
    (h : intersection a b = .error e) : ∃ e', allIntersections A B = .error e' := by
  cases hr : allIntersections A B with
  | error e' => exact ⟨e', rfl⟩
  | ok l =>
    exfalso
    have hf := mapM_ok_forall _ _ _ hr
    have hm : (a, b) ∈ A.flatMap fun a => B.map fun b => (a, b) :=
      List.mem_flatMap.mpr ⟨a, ha, List.mem_map.mpr ⟨b, hb, rfl⟩⟩
    clear hr
    revert hf hm
    generalize (A.flatMap fun a => B.map fun b => (a, b)) = L
    intro hf hm
    induction hf with
    | nil => cases hm
    | cons h1 _ ih =>
      rcases List.mem_cons.mp hm with rfl | hm
      · rw [h] at h1; cases h1
      · exact ih hm

/-- A zero-length segment crosses nothing, so a line that stops somewhere on the way has no crossings at all. -/
example : ∃ e', allIntersections [diag2, ⟨(45, -60), (45, -60)⟩] [diag1] = .error e' := by
  apply C90_violated_one_miss _ _ ⟨(45, -60), (45, -60)⟩ diag1 (by simp) (by simp) .zeroDivision
  have e0 : eulerpole ⟨(45, -60), (45, -60)⟩ = ⟨0, 0, 0⟩ := by
    unfold eulerpole cross; simp only; congr 1 <;> ring
  have e1 : cross (eulerpole ⟨(45, -60), (45, -60)⟩) (eulerpole diag1) = ⟨0, 0, 0⟩ := by
    rw [e0]; unfold cross; simp
  unfold intersection
  rw [e1]
  have : cart2sph (1 / 10 ^ 4) ⟨0, 0, 0⟩ = .error .zeroDivision := by
    unfold cart2sph; simp
  rw [this]

end Karta.Geod.Sphere
