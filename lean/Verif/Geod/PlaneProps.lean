import Verif.Geod.Plane
import Mathlib.Analysis.InnerProductSpace.PiL2

/-!
Properties C84 (Cartesian forward and inverse problems), C85 (walking and bearings of points) and C86 (distance of
points is a metric).
-/

namespace Karta.Geod
open Karta

/-! ### C84 -/

theorem planeDistance_eq (x1 y1 x2 y2 : ℝ) :
    planeDistance x1 y1 x2 y2 = Real.sqrt ((y2 - y1) ^ 2 + (x2 - x1) ^ 2) := by
  unfold planeDistance; rw [add_comm]

/-- C84, there and back.  Travelling the distance that `inverse` reports, in the direction that it reports, leads
exactly to the second point, with the back azimuth that `inverse` reports.  This includes coincident points. -/
theorem C84_forward_inverse (x1 y1 x2 y2 : ℝ) (radians : Bool) :
    forward x1 y1 (inverse x1 y1 x2 y2 radians).1 (inverse x1 y1 x2 y2 radians).2.2 radians
      = (x2, y2, (inverse x1 y1 x2 y2 radians).2.1) := by
  have hpi := Real.pi_ne_zero
  have h1 : planeDistance x1 y1 x2 y2 * Real.sin (planeAzimuth x1 y1 x2 y2) = x2 - x1 := by
    rw [planeDistance_eq]; exact atan2_sin _ _
  have h2 : planeDistance x1 y1 x2 y2 * Real.cos (planeAzimuth x1 y1 x2 y2) = y2 - y1 := by
    rw [planeDistance_eq]; exact atan2_cos _ _
  cases radians with
  | true => simp [forward, inverse, h1, h2]
  | false =>
    have e : planeAzimuth x1 y1 x2 y2 * 180 / Real.pi / 180 * Real.pi = planeAzimuth x1 y1 x2 y2 := by field_simp
    simp [forward, inverse, e, h1, h2]

/-- Degrees or radians in a full turn. -/
noncomputable def fullTurn (radians : Bool) : ℝ := if radians then 2 * Real.pi else 360

/-- C84, back and there.  After travelling a positive distance in some direction, `inverse` reports that distance,
that direction up to full turns and reduced to at most half a turn either way, and the back azimuth that `forward`
reported. -/
theorem C84_inverse_forward (x y az dist : ℝ) (hd : 0 < dist) (radians : Bool) :
    ∃ az' baz', inverse x y (forward x y az dist radians).1 (forward x y az dist radians).2.1 radians = (az', baz', dist) ∧
      (∃ k : ℤ, az' = az + fullTurn radians * k) ∧ -(fullTurn radians / 2) < az' ∧ az' ≤ fullTurn radians / 2 ∧
      baz' = (forward x y az dist radians).2.2 := by
  have hpi := Real.pi_pos
  have key : ∀ a : ℝ, planeDistance x y (x + dist * Real.sin a) (y + dist * Real.cos a) = dist := by
    intro a
    unfold planeDistance
    have : (x + dist * Real.sin a - x) ^ 2 + (y + dist * Real.cos a - y) ^ 2 = dist ^ 2 := by
      have := Real.sin_sq_add_cos_sq a
      linear_combination dist ^ 2 * this
    rw [this]; exact Real.sqrt_sq hd.le
  have key2 : ∀ a : ℝ, ∃ k : ℤ, planeAzimuth x y (x + dist * Real.sin a) (y + dist * Real.cos a) = a + 2 * Real.pi * k := by
    intro a
    obtain ⟨k, hk⟩ := atan2_polar_cong hd a
    refine ⟨k, ?_⟩
    unfold planeAzimuth
    rw [add_sub_cancel_left, add_sub_cancel_left]
    exact hk
  have key3 : ∀ a : ℝ, unrollRad (planeAzimuth x y (x + dist * Real.sin a) (y + dist * Real.cos a) + Real.pi)
      = unrollRad (a + Real.pi) := by
    intro a
    obtain ⟨k, hk⟩ := key2 a
    unfold unrollRad
    rw [hk, show a + 2 * Real.pi * k + Real.pi = (a + Real.pi) + 2 * Real.pi * k by ring]
    exact pyModR_add _ (by positivity) k
  cases radians with
  | true =>
    obtain ⟨k, hk⟩ := key2 az
    have hm := atan2_mem (x + dist * Real.sin az - x) (y + dist * Real.cos az - y)
    refine ⟨planeAzimuth x y (x + dist * Real.sin az) (y + dist * Real.cos az), _,
      by simp only [inverse, forward, if_true, key az]; rfl, ⟨k, by simp [fullTurn, hk]⟩, ?_, ?_, ?_⟩
    · have : -(fullTurn true / 2) = -Real.pi := by simp [fullTurn]
      rw [this]; exact hm.1
    · have : fullTurn true / 2 = Real.pi := by simp [fullTurn]
      rw [this]; exact hm.2
    · simp only [forward, if_true]; exact key3 az
  | false =>
    obtain ⟨k, hk⟩ := key2 (az / 180 * Real.pi)
    have hm := atan2_mem (x + dist * Real.sin (az / 180 * Real.pi) - x) (y + dist * Real.cos (az / 180 * Real.pi) - y)
    refine ⟨planeAzimuth x y (x + dist * Real.sin (az / 180 * Real.pi)) (y + dist * Real.cos (az / 180 * Real.pi)) * 180 / Real.pi, _,
      by simp only [inverse, forward, Bool.false_eq_true, if_false, key]; rfl,
      ⟨k, by rw [hk]; simp only [fullTurn, Bool.false_eq_true, if_false]; field_simp; ring⟩, ?_, ?_, ?_⟩
    · have : -(fullTurn false / 2) = -180 := by simp [fullTurn]; norm_num
      rw [this, lt_div_iff₀ hpi]
      have := hm.1
      unfold planeAzimuth
      nlinarith
    · have : fullTurn false / 2 = 180 := by simp [fullTurn]; norm_num
      rw [this, div_le_iff₀ hpi]
      have := hm.2
      unfold planeAzimuth
      nlinarith
    · simp only [forward, Bool.false_eq_true, if_false, key3]

/-- C84, symmetry.  Both directions of an `inverse` problem have the same length, and the azimuth of the way back is the
back azimuth up to full turns. -/
theorem C84_inverse_symmetric (x1 y1 x2 y2 : ℝ) (hne : x1 ≠ x2 ∨ y1 ≠ y2) :
    (inverse x2 y2 x1 y1 true).2.2 = (inverse x1 y1 x2 y2 true).2.2 ∧
    ∃ k : ℤ, (inverse x2 y2 x1 y1 true).1 = (inverse x1 y1 x2 y2 true).2.1 + 2 * Real.pi * k := by
  have hd : 0 < planeDistance x1 y1 x2 y2 := by
    unfold planeDistance
    apply Real.sqrt_pos.mpr
    rcases hne with h | h
    · have : x2 - x1 ≠ 0 := fun h' => h (by linarith)
      positivity
    · have : y2 - y1 ≠ 0 := fun h' => h (by linarith)
      positivity
  refine ⟨?_, ?_⟩
  · simp only [inverse, if_true]
    unfold planeDistance
    congr 1; ring
  · simp only [inverse, if_true]
    have h1 : planeDistance x1 y1 x2 y2 * Real.sin (planeAzimuth x1 y1 x2 y2) = x2 - x1 := by
      rw [planeDistance_eq]; exact atan2_sin _ _
    have h2 : planeDistance x1 y1 x2 y2 * Real.cos (planeAzimuth x1 y1 x2 y2) = y2 - y1 := by
      rw [planeDistance_eq]; exact atan2_cos _ _
    obtain ⟨k, hk⟩ := atan2_polar_cong hd (planeAzimuth x1 y1 x2 y2 + Real.pi)
    obtain ⟨j, hj⟩ := pyModR_cong (planeAzimuth x1 y1 x2 y2 + Real.pi) (2 * Real.pi)
    rw [Real.sin_add_pi, Real.cos_add_pi, mul_neg, mul_neg, h1, h2] at hk
    refine ⟨k - j, ?_⟩
    unfold unrollRad
    rw [hj]
    have : planeAzimuth x2 y2 x1 y1 = atan2 (-(x2 - x1)) (-(y2 - y1)) := by
      unfold planeAzimuth; congr 1 <;> ring
    rw [this, hk]
    push_cast
    ring

/-- C84, the compass.  Azimuths count clockwise from north: 0 north, 90 east, 180 south, -90 west. -/
theorem C84_compass (x y d : ℝ) :
    forward x y 0 d false = (x, y + d, 180) ∧ (forward x y 90 d false).1 = x + d ∧ (forward x y 90 d false).2.1 = y ∧
    (forward x y 180 d false).1 = x ∧ (forward x y 180 d false).2.1 = y - d ∧
    (forward x y (-90) d false).1 = x - d ∧ (forward x y (-90) d false).2.1 = y := by
  have hpi := Real.pi_pos
  have e1 : (90 : ℝ) / 180 * Real.pi = Real.pi / 2 := by ring
  have e2 : (180 : ℝ) / 180 * Real.pi = Real.pi := by ring
  have e3 : (-90 : ℝ) / 180 * Real.pi = -(Real.pi / 2) := by ring
  have e4 : unrollRad (0 + Real.pi) = Real.pi := by
    unfold unrollRad; rw [zero_add]; exact pyModR_self hpi.le (by linarith)
  have e5 : Real.pi * 180 / Real.pi = 180 := by field_simp
  refine ⟨?_, ?_, ?_, ?_, ?_, ?_, ?_⟩
  · simp only [forward, Bool.false_eq_true, if_false, zero_div, zero_mul, Real.sin_zero, Real.cos_zero, mul_zero, mul_one,
      add_zero, e4, e5]
  all_goals simp [forward, e1, e2, e3] <;> ring

example : (forward 3 4 0 5 false).2.1 = 9 := by rw [(C84_compass 3 4 5).1]; norm_num

/-! ### C85 -/

theorem distance_flat (p q : Vtx) (h : p.z = none ∨ q.z = none) :
    distance p q = Real.sqrt ((q.x - p.x) ^ 2 + (q.y - p.y) ^ 2) := by
  obtain ⟨x, y, z⟩ := p
  obtain ⟨u, v, w⟩ := q
  unfold distance
  rcases h with h | h
  · simp only at h; subst h; simp [sq]
  · simp only at h; subst h
    cases z <;> simp [sq]

theorem cos_reduce (a t : ℝ) (k : ℤ) (h : a = 90 - t * 180 / Real.pi + 360 * k) :
    Real.cos ((90 - a) * Real.pi / 180) = Real.cos t ∧ Real.sin ((90 - a) * Real.pi / 180) = Real.sin t := by
  have hpi := Real.pi_ne_zero
  have : (90 - a) * Real.pi / 180 = t - k * (2 * Real.pi) := by
    rw [h]; field_simp; ring
  rw [this]
  exact ⟨Real.cos_sub_int_mul_two_pi t k, Real.sin_sub_int_mul_two_pi t k⟩

/-- C85, going to a point.  Walking the distance to another point in the direction of its azimuth leads to it. -/
theorem C85_walk_there (p q : Vtx) (hz : p.z = none ∨ q.z = none) (az : ℝ) (h : azimuth p q = some az) :
    (walk p (distance p q) az).x = q.x ∧ (walk p (distance p q) az).y = q.y := by
  unfold azimuth at h
  by_cases hne : p.x ≠ q.x ∨ p.y ≠ q.y
  · rw [if_pos hne] at h
    obtain ⟨k, hk⟩ := pyModR_cong (90 - atan2 (q.y - p.y) (q.x - p.x) * 180 / Real.pi + 180) 360
    have ha : az = 90 - atan2 (q.y - p.y) (q.x - p.x) * 180 / Real.pi + 360 * k := by
      have := Option.some.inj h; rw [hk] at this; linarith
    obtain ⟨hc, hs⟩ := cos_reduce az _ k ha
    rw [distance_flat p q hz]
    unfold walk
    simp only [hc, hs, atan2_cos, atan2_sin]
    constructor <;> ring
  · rw [if_neg hne] at h; cases h

/-- C85, an azimuth exists exactly for points at different places, and it is at least -180 and less than 180. -/
theorem C85_azimuth_defined (p q : Vtx) :
    (azimuth p q = none ↔ p.x = q.x ∧ p.y = q.y) ∧ ∀ az, azimuth p q = some az → -180 ≤ az ∧ az < 180 := by
  unfold azimuth
  by_cases hne : p.x ≠ q.x ∨ p.y ≠ q.y
  · rw [if_pos hne]
    refine ⟨⟨fun h => (by cases h), fun h => ?_⟩, fun az h => ?_⟩
    · rcases hne with h' | h'
      · exact absurd h.1 h'
      · exact absurd h.2 h'
    · have := pyModR_mem (90 - atan2 (q.y - p.y) (q.x - p.x) * 180 / Real.pi + 180) (show (0 : ℝ) < 360 by norm_num)
      have h := Option.some.inj h
      constructor <;> linarith
  · rw [if_neg hne]
    push Not at hne
    exact ⟨⟨fun _ => hne, fun _ => rfl⟩, fun az h => by cases h⟩

/-- C85, coming from a walk.  After a walk of positive length the distance is that length and the azimuth is the direction
walked, reduced to [-180, 180). -/
theorem C85_after_walk (p : Vtx) (d az : ℝ) (hd : 0 < d) :
    distance p (walk p d az) = d ∧ azimuth p (walk p d az) = some (pyModR (az + 180) 360 - 180) := by
  have hpi := Real.pi_pos
  have hsq := Real.sin_sq_add_cos_sq ((90 - az) * Real.pi / 180)
  refine ⟨?_, ?_⟩
  · rw [distance_flat p _ (Or.inr rfl)]
    have : ((walk p d az).x - p.x) ^ 2 + ((walk p d az).y - p.y) ^ 2 = d ^ 2 := by
      simp only [walk]; linear_combination d ^ 2 * hsq
    rw [this]; exact Real.sqrt_sq hd.le
  · unfold azimuth
    have hne : p.x ≠ (walk p d az).x ∨ p.y ≠ (walk p d az).y := by
      by_contra hc
      push Not at hc
      simp only [walk] at hc
      have h1 : d * Real.cos ((90 - az) * Real.pi / 180) = 0 := by linarith [hc.1]
      have h2 : d * Real.sin ((90 - az) * Real.pi / 180) = 0 := by linarith [hc.2]
      have h1 : Real.cos ((90 - az) * Real.pi / 180) = 0 := by
        rcases mul_eq_zero.mp h1 with h | h
        · linarith
        · exact h
      have h2 : Real.sin ((90 - az) * Real.pi / 180) = 0 := by
        rcases mul_eq_zero.mp h2 with h | h
        · linarith
        · exact h
      rw [h1, h2] at hsq
      norm_num at hsq
    rw [if_pos hne]
    have e1 : (walk p d az).y - p.y = d * Real.sin ((90 - az) * Real.pi / 180) := by simp [walk]
    have e2 : (walk p d az).x - p.x = d * Real.cos ((90 - az) * Real.pi / 180) := by simp [walk]
    obtain ⟨k, hk⟩ := atan2_polar_cong hd ((90 - az) * Real.pi / 180)
    rw [e1, e2, hk]
    have : 90 - ((90 - az) * Real.pi / 180 + 2 * Real.pi * k) * 180 / Real.pi + 180 = (az + 180) + 360 * ((-k : ℤ) : ℝ) := by
      push_cast
      field_simp
      ring
    rw [this, pyModR_add _ (by norm_num)]

/-- C85 is false in geographical systems for points on one meridian: their azimuth is NaN, whatever the system's `inverse`
computes, because the test that should exclude coincident points has its second comparison the wrong way round. -/
theorem C85_violated_meridian (inv : ℝ → ℝ → ℝ → ℝ → ℝ × ℝ × ℝ) (p q : Vtx) (hx : p.x = q.x) (hy : p.y ≠ q.y) :
    azimuthGeo inv p q = none := by
  unfold azimuthGeo
  rw [if_neg]
  push Not
  exact ⟨hx, hy⟩

/-- C85, partial: in geographical systems the azimuth is the system's own for points on different meridians. -/
theorem C85_geographic_partial (inv : ℝ → ℝ → ℝ → ℝ → ℝ × ℝ × ℝ) (p q : Vtx) (hx : p.x ≠ q.x) :
    azimuthGeo inv p q = some (inv p.x p.y q.x q.y).1 := if_pos (Or.inl hx)

example : azimuth ⟨0, 0, none⟩ ⟨1, 0, none⟩ ≠ none := by
  rw [ne_eq, (C85_azimuth_defined _ _).1]; norm_num
example := C85_after_walk ⟨1, 2, some 7⟩ 3 450 (by norm_num)

/-! ### C86 -/

/-- The position as a vector; a missing height counts as zero. -/
noncomputable def vec (p : Vtx) : EuclideanSpace ℝ (Fin 3) := !₂[p.x, p.y, p.z.getD 0]

/-- Spec: the points have the same number of coordinates. -/
def SameRank (p q : Vtx) : Prop := p.z.isSome = q.z.isSome

theorem distance_vec (p q : Vtx) (h : SameRank p q) : distance p q = dist (vec p) (vec q) := by
  rw [EuclideanSpace.dist_eq]
  obtain ⟨x, y, z⟩ := p
  obtain ⟨u, v, w⟩ := q
  have sq' : ∀ a b : ℝ, dist a b ^ 2 = (b - a) * (b - a) := by
    intro a b; rw [Real.dist_eq, sq_abs]; ring
  cases z with
  | none =>
    cases w with
    | none => simp [distance, vec, Fin.sum_univ_three, sq']
    | some w => simp [SameRank] at h
  | some z =>
    cases w with
    | none => simp [SameRank] at h
    | some w =>
      have hn : 0 ≤ (u - x) * (u - x) + (v - y) * (v - y) := add_nonneg (mul_self_nonneg _) (mul_self_nonneg _)
      simp only [distance, vec, Fin.sum_univ_three, sq', Real.mul_self_sqrt hn]
      congr 1
      simp
      ring

/-- C86, partial (points with equally many coordinates).  The distance of points is a metric: zero exactly for equal
positions, symmetric, and no detour is shorter. -/
theorem C86_metric_partial (p q r : Vtx) (hpq : SameRank p q) (hqr : SameRank q r) :
    (distance p q = 0 ↔ p.x = q.x ∧ p.y = q.y ∧ p.z = q.z) ∧ 0 ≤ distance p q ∧
    distance p q = distance q p ∧ distance p r ≤ distance p q + distance q r := by
  have hpr : SameRank p r := hpq.trans hqr
  have hqp : SameRank q p := hpq.symm
  rw [distance_vec p q hpq, distance_vec q p hqp, distance_vec p r hpr, distance_vec q r hqr]
  refine ⟨?_, dist_nonneg, dist_comm _ _, dist_triangle _ _ _⟩
  rw [dist_eq_zero]
  constructor
  · intro h
    have h0 := congrFun (congrArg (fun v : EuclideanSpace ℝ (Fin 3) => v.ofLp) h) 0
    have h1 := congrFun (congrArg (fun v : EuclideanSpace ℝ (Fin 3) => v.ofLp) h) 1
    have h2 := congrFun (congrArg (fun v : EuclideanSpace ℝ (Fin 3) => v.ofLp) h) 2
    simp only [vec] at h0 h1 h2
    refine ⟨by simpa using h0, by simpa using h1, ?_⟩
    have h2 : p.z.getD 0 = q.z.getD 0 := by simpa using h2
    unfold SameRank at hpq
    cases hp : p.z with
    | none =>
      cases hq : q.z with
      | none => rfl
      | some b => simp [hp, hq] at hpq
    | some a =>
      cases hq : q.z with
      | none => simp [hp, hq] at hpq
      | some b => simp [hp, hq] at h2; rw [h2]
  · rintro ⟨a, b, c⟩
    unfold vec; rw [a, b, c]

/-- C86, planar points. -/
theorem C86_planar (p q : Vtx) (hp : p.z = none) (hq : q.z = none) : distance p q = planeDistance p.x p.y q.x q.y := by
  rw [distance_flat p q (Or.inl hp)]; rfl

/-- C86 is false when two- and three-dimensional points meet: the way through a flat point can be shorter than the direct
way between two points above each other, which are at distance 5 while both are at distance 0 from the flat one. -/
theorem C86_violated_mixed : ∃ p q r : Vtx, distance p q = 0 ∧ distance q r = 0 ∧ distance p r = 5 := by
  refine ⟨⟨0, 0, some 0⟩, ⟨0, 0, none⟩, ⟨0, 0, some 5⟩, by simp [distance], by simp [distance], ?_⟩
  have : Real.sqrt (5 * 5) = 5 := Real.sqrt_mul_self (by norm_num)
  simp [distance, this]

example : SameRank ⟨0, 0, some 1⟩ ⟨3, 4, some 1⟩ ∧ SameRank ⟨0, 0, none⟩ ⟨3, 4, none⟩ := ⟨rfl, rfl⟩

end Karta.Geod
