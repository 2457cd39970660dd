import Verif.Geod.Inverse
import Verif.Geod.GeodesicProps

/-!
# The inverse geodesic problem on a sphere: properties

C95: `solve_vincenty` on a sphere gives the great circle between two positions.
C97: so does `ellipsoidal_inverse`, except where it uses the guess for antipodal points.
-/

namespace Karta.Geod.Geodesic
open Karta Karta.Geod Karta.Geod.Sphere

/-! ### Specification -/

/-- Spec: the direction of travel after following the great circle from `p` in the direction `t` by the angle `d`. -/
noncomputable def arcDir (p t : V3) (d : ℝ) : V3 :=
  ⟨-Real.sin d * p.x + Real.cos d * t.x, -Real.sin d * p.y + Real.cos d * t.y, -Real.sin d * p.z + Real.cos d * t.z⟩

/-- Spec: the great circle from `(lon1, lat1)` with azimuth `az1` reaches `(lon2, lat2)` with azimuth `az2` after the angle `d`,
which is at most half way round.  Angles in radians. -/
structure Joins (lon1 lat1 lon2 lat2 az1 az2 d : ℝ) : Prop where
  reach : position lon2 lat2 = arc (position lon1 lat1) (heading lon1 lat1 az1) d
  dir : heading lon2 lat2 az2 = arcDir (position lon1 lat1) (heading lon1 lat1 az1) d
  nonneg : 0 ≤ d
  half : d ≤ Real.pi

theorem V3.ext' {u v : V3} (hx : u.x = v.x) (hy : u.y = v.y) (hz : u.z = v.z) : u = v := by
  cases u; cases v; simp only at hx hy hz; rw [hx, hy, hz]

/-! ### C95: Vincenty's formula on a sphere -/

theorem vincenty_sphere (a lam phi1 phi2 : ℝ) (h1 : -(Real.pi / 2) < phi1) (h1' : phi1 < Real.pi / 2)
    (h2 : -(Real.pi / 2) < phi2) (h2' : phi2 < Real.pi / 2) :
    solveVincenty a 0 lam phi1 phi2 =
      (atan2 (Real.cos phi2 * Real.sin lam) (Real.cos phi1 * Real.sin phi2 - Real.sin phi1 * Real.cos phi2 * Real.cos lam),
       atan2 (Real.cos phi1 * Real.sin lam) (-Real.sin phi1 * Real.cos phi2 + Real.cos phi1 * Real.sin phi2 * Real.cos lam),
       a * atan2 (Real.sqrt ((Real.cos phi1 * Real.sin phi2 - Real.sin phi1 * Real.cos phi2 * Real.cos lam) ^ 2
          + (Real.cos phi2 * Real.sin lam) ^ 2))
         (Real.sin phi1 * Real.sin phi2 + Real.cos phi1 * Real.cos phi2 * Real.cos lam)) := by
  unfold solveVincenty
  have e1 : Real.arctan ((1 - 0) * Real.tan phi1) = phi1 := by rw [sub_zero, one_mul, Real.arctan_tan h1 h1']
  have e2 : Real.arctan ((1 - 0) * Real.tan phi2) = phi2 := by rw [sub_zero, one_mul, Real.arctan_tan h2 h2']
  dsimp only
  rw [e1, e2]
  simp

/-- The sides of the triangle that `solve_vincenty` computes. -/
theorem vincenty_sides (lam phi1 phi2 : ℝ) :
    let z1r := Real.cos phi1 * Real.sin phi2 - Real.sin phi1 * Real.cos phi2 * Real.cos lam
    let z1i := Real.cos phi2 * Real.sin lam
    let z2r := -Real.sin phi1 * Real.cos phi2 + Real.cos phi1 * Real.sin phi2 * Real.cos lam
    let z2i := Real.cos phi1 * Real.sin lam
    let z1 := Real.sqrt (z1r ^ 2 + z1i ^ 2)
    let c := Real.sin phi1 * Real.sin phi2 + Real.cos phi1 * Real.cos phi2 * Real.cos lam
    let s := atan2 z1 c
    0 ≤ s ∧ s ≤ Real.pi ∧ Real.sin s = z1 ∧ Real.cos s = c ∧
    z1 * Real.cos (atan2 z1i z1r) = z1r ∧ z1 * Real.sin (atan2 z1i z1r) = z1i ∧
    z1 * Real.cos (atan2 z2i z2r) = z2r ∧ z1 * Real.sin (atan2 z2i z2r) = z2i := by
  intro z1r z1i z2r z2i z1 c s
  have e1 := Real.sin_sq_add_cos_sq phi1
  have e2 := Real.sin_sq_add_cos_sq phi2
  have e3 := Real.sin_sq_add_cos_sq lam
  have hz1 : z1 ^ 2 = z1r ^ 2 + z1i ^ 2 := Real.sq_sqrt (by positivity)
  have hz0 : 0 ≤ z1 := Real.sqrt_nonneg _
  have hn : c ^ 2 + z1 ^ 2 = 1 := by
    rw [hz1]
    show (Real.sin phi1 * Real.sin phi2 + Real.cos phi1 * Real.cos phi2 * Real.cos lam) ^ 2 +
      ((Real.cos phi1 * Real.sin phi2 - Real.sin phi1 * Real.cos phi2 * Real.cos lam) ^ 2 + (Real.cos phi2 * Real.sin lam) ^ 2) = 1
    linear_combination (Real.sin phi2 ^ 2 + Real.cos phi2 ^ 2 * Real.cos lam ^ 2) * e1 + (1 : ℝ) * e2 + Real.cos phi2 ^ 2 * e3
  have h2 : z2r ^ 2 + z2i ^ 2 = z1 ^ 2 := by
    rw [hz1]
    show (-Real.sin phi1 * Real.cos phi2 + Real.cos phi1 * Real.sin phi2 * Real.cos lam) ^ 2 + (Real.cos phi1 * Real.sin lam) ^ 2
      = (Real.cos phi1 * Real.sin phi2 - Real.sin phi1 * Real.cos phi2 * Real.cos lam) ^ 2 + (Real.cos phi2 * Real.sin lam) ^ 2
    have c1 : Real.cos phi1 ^ 2 = 1 - Real.sin phi1 ^ 2 := by linarith
    have c2 : Real.cos phi2 ^ 2 = 1 - Real.sin phi2 ^ 2 := by linarith
    have c3 : Real.sin lam ^ 2 = 1 - Real.cos lam ^ 2 := by linarith
    ring_nf
    rw [c1, c2, c3]
    ring
  obtain ⟨b1, b2⟩ := atan2_of_norm (y := z1) (x := c) (r := 1) (by rw [hn]; norm_num) zero_le_one
  rw [one_mul] at b1 b2
  obtain ⟨d1, d2⟩ := atan2_of_norm (y := z1i) (x := z1r) (r := z1) hz1.symm hz0
  obtain ⟨f1, f2⟩ := atan2_of_norm (y := z2i) (x := z2r) (r := z1) h2 hz0
  refine ⟨?_, (atan2_mem _ _).2, b2, b1, d1, d2, f1, f2⟩
  show 0 ≤ Complex.arg _
  rw [Complex.arg_nonneg_iff]
  exact hz0

/-- C95.  On a sphere `solve_vincenty` gives the azimuth of the great circle from the first position to the second, and its
length. -/
theorem C95_reach (a lam phi1 phi2 : ℝ) (ha : 0 < a) (h1 : -(Real.pi / 2) < phi1) (h1' : phi1 < Real.pi / 2)
    (h2 : -(Real.pi / 2) < phi2) (h2' : phi2 < Real.pi / 2) :
    position lam phi2 = arc (position 0 phi1) (heading 0 phi1 (solveVincenty a 0 lam phi1 phi2).1)
      ((solveVincenty a 0 lam phi1 phi2).2.2 / a) ∧
    0 ≤ (solveVincenty a 0 lam phi1 phi2).2.2 / a ∧ (solveVincenty a 0 lam phi1 phi2).2.2 / a ≤ Real.pi := by
  rw [vincenty_sphere a lam phi1 phi2 h1 h1' h2 h2']
  dsimp only
  rw [mul_div_cancel_left₀ _ ha.ne']
  obtain ⟨s0, s1, hs, hc, p1, p2, -, -⟩ := vincenty_sides lam phi1 phi2
  refine ⟨?_, s0, s1⟩
  set z1 := Real.sqrt ((Real.cos phi1 * Real.sin phi2 - Real.sin phi1 * Real.cos phi2 * Real.cos lam) ^ 2
          + (Real.cos phi2 * Real.sin lam) ^ 2)
  set az := atan2 (Real.cos phi2 * Real.sin lam) (Real.cos phi1 * Real.sin phi2 - Real.sin phi1 * Real.cos phi2 * Real.cos lam)
  have e1 := Real.sin_sq_add_cos_sq phi1
  unfold arc position heading
  rw [hs, hc]
  simp only [Real.cos_zero, Real.sin_zero, mul_one, mul_zero]
  congr 1
  · linear_combination (-(Real.cos phi2 * Real.cos lam)) * e1 + Real.sin phi1 * p1
  · linear_combination -p2
  · linear_combination (-Real.sin phi2) * e1 - Real.cos phi1 * p1

/-- C95.  The second azimuth is the direction of travel at the second position, unless the positions coincide or are
opposite. -/
theorem C95_arrival (a lam phi1 phi2 : ℝ) (ha : 0 < a) (h1 : -(Real.pi / 2) < phi1) (h1' : phi1 < Real.pi / 2)
    (h2 : -(Real.pi / 2) < phi2) (h2' : phi2 < Real.pi / 2) (hne : (solveVincenty a 0 lam phi1 phi2).2.2 ≠ 0)
    (hno : (solveVincenty a 0 lam phi1 phi2).2.2 ≠ a * Real.pi) :
    heading lam phi2 (solveVincenty a 0 lam phi1 phi2).2.1 =
      arcDir (position 0 phi1) (heading 0 phi1 (solveVincenty a 0 lam phi1 phi2).1) ((solveVincenty a 0 lam phi1 phi2).2.2 / a) := by
  have e1 := Real.sin_sq_add_cos_sq phi1
  have e2 := Real.sin_sq_add_cos_sq phi2
  have e3 := Real.sin_sq_add_cos_sq lam
  rw [vincenty_sphere a lam phi1 phi2 h1 h1' h2 h2'] at hne hno ⊢
  dsimp only at hne hno ⊢
  rw [mul_div_cancel_left₀ _ ha.ne']
  obtain ⟨s0, s1, hs, hc, p1, p2, q1, q2⟩ := vincenty_sides lam phi1 phi2
  set z1 := Real.sqrt ((Real.cos phi1 * Real.sin phi2 - Real.sin phi1 * Real.cos phi2 * Real.cos lam) ^ 2
          + (Real.cos phi2 * Real.sin lam) ^ 2) with hz1
  set az := atan2 (Real.cos phi2 * Real.sin lam) (Real.cos phi1 * Real.sin phi2 - Real.sin phi1 * Real.cos phi2 * Real.cos lam)
  set az2 := atan2 (Real.cos phi1 * Real.sin lam) (-Real.sin phi1 * Real.cos phi2 + Real.cos phi1 * Real.sin phi2 * Real.cos lam)
  set c := Real.sin phi1 * Real.sin phi2 + Real.cos phi1 * Real.cos phi2 * Real.cos lam with hcdef
  set s := atan2 z1 c
  have hz : z1 ≠ 0 := by
    intro h
    rw [h] at hs
    rcases (Real.sin_eq_zero_iff).mp hs with ⟨k, hk⟩
    have hpi := Real.pi_pos
    have k0 : (0 : ℝ) ≤ k := by by_contra hcon; push Not at hcon; nlinarith
    have k1 : (k : ℝ) ≤ 1 := by by_contra hcon; push Not at hcon; nlinarith
    have k0' : 0 ≤ k := by exact_mod_cast k0
    have k1' : k ≤ 1 := by exact_mod_cast k1
    have : k = 0 ∨ k = 1 := by omega
    rcases this with h0 | h0
    · rw [h0] at hk; apply hne; rw [← hk]; simp
    · rw [h0] at hk; apply hno; rw [← hk]; simp
  have hzz : z1 ^ 2 = 1 - c ^ 2 := by
    have := Real.sin_sq_add_cos_sq s
    rw [hs, hc] at this; linarith
  unfold arcDir heading position
  rw [hs, hc]
  simp only [Real.cos_zero, Real.sin_zero, mul_one, mul_zero]
  congr 1
  · apply mul_left_cancel₀ hz
    have g1 : z1 * (-(Real.cos az2 * Real.sin phi2 * Real.cos lam) - Real.sin az2 * Real.sin lam)
        = -((z1 * Real.cos az2) * Real.sin phi2 * Real.cos lam) - (z1 * Real.sin az2) * Real.sin lam := by ring
    have g2 : z1 * (-z1 * Real.cos phi1 + c * (-(Real.cos az * Real.sin phi1) - 0))
        = -(z1 ^ 2) * Real.cos phi1 - c * ((z1 * Real.cos az) * Real.sin phi1) := by ring
    rw [g1, g2, q1, q2, p1, hzz, hcdef]
    linear_combination (-Real.cos phi1) * e3 - Real.cos phi1 * Real.cos lam ^ 2 * e2
      - (Real.sin phi1 * Real.sin phi2 + Real.cos phi1 * Real.cos phi2 * Real.cos lam) * Real.cos phi2 * Real.cos lam * e1
  · apply mul_left_cancel₀ hz
    have g1 : z1 * (-(Real.cos az2 * Real.sin phi2 * Real.sin lam) + Real.sin az2 * Real.cos lam)
        = -((z1 * Real.cos az2) * Real.sin phi2 * Real.sin lam) + (z1 * Real.sin az2) * Real.cos lam := by ring
    have g2 : z1 * (0 + c * (-0 + Real.sin az)) = c * (z1 * Real.sin az) := by ring
    rw [g1, g2, q1, q2, p2, hcdef]
    linear_combination (-(Real.cos phi1 * Real.sin lam * Real.cos lam)) * e2
  · apply mul_left_cancel₀ hz
    have g1 : z1 * (Real.cos az2 * Real.cos phi2) = (z1 * Real.cos az2) * Real.cos phi2 := by ring
    have g2 : z1 * (-z1 * Real.sin phi1 + c * (Real.cos az * Real.cos phi1))
        = -(z1 ^ 2) * Real.sin phi1 + c * ((z1 * Real.cos az) * Real.cos phi1) := by ring
    rw [g1, g2, q1, p1, hzz, hcdef]
    linear_combination (-Real.sin phi1) * e2
      - (Real.sin phi1 * Real.sin phi2 + Real.cos phi1 * Real.cos phi2 * Real.cos lam) * Real.sin phi2 * e1

/-- From (0, 45) to (90, 45) degrees: the positions are neither equal nor opposite. -/
example : (solveVincenty 1 0 (Real.pi / 2) (Real.pi / 4) (Real.pi / 4)).2.2 ≠ 0 ∧
    (solveVincenty 1 0 (Real.pi / 2) (Real.pi / 4) (Real.pi / 4)).2.2 ≠ 1 * Real.pi := by
  have hpi := Real.pi_pos
  have h := (C95_reach 1 (Real.pi / 2) (Real.pi / 4) (Real.pi / 4) one_pos (by linarith) (by linarith) (by linarith) (by linarith)).1
  have hc : 0 < Real.cos (Real.pi / 4) := Real.cos_pos_of_mem_Ioo ⟨by linarith, by linarith⟩
  have hs : 0 < Real.sin (Real.pi / 4) := Real.sin_pos_of_pos_of_lt_pi (by linarith) (by linarith)
  have hx := congrArg V3.x h
  have hz := congrArg V3.z h
  simp only [position, arc, heading] at hx hz
  constructor
  · intro e
    rw [e] at hx
    simp at hx
    have := Real.sqrt_pos.mpr (show (0 : ℝ) < 2 by norm_num)
    linarith
  · intro e
    rw [e, one_mul] at hz
    simp at hz
    have := Real.sqrt_pos.mpr (show (0 : ℝ) < 2 by norm_num)
    linarith

/-! ### Symmetries -/

theorem rot_arcDir (t : ℝ) (p q : V3) (d : ℝ) : rot t (arcDir p q d) = arcDir (rot t p) (rot t q) d := by
  unfold rot arcDir
  simp only
  congr 1 <;> ring

theorem Joins.rot {l1 f1 l2 f2 a1 a2 d : ℝ} (h : Joins l1 f1 l2 f2 a1 a2 d) (t : ℝ) : Joins (l1 + t) f1 (l2 + t) f2 a1 a2 d := by
  refine ⟨?_, ?_, h.nonneg, h.half⟩
  · rw [← rot_position, ← rot_position, ← rot_heading, ← rot_arc, h.reach]
  · rw [← rot_position, ← rot_heading, ← rot_heading, ← rot_arcDir, h.dir]

theorem Joins.congr {l1 f1 l2 f2 a1 a2 d a1' a2' : ℝ} (h : Joins l1 f1 l2 f2 a1 a2 d) (c1 : Real.cos a1 = Real.cos a1')
    (s1 : Real.sin a1 = Real.sin a1') (c2 : Real.cos a2 = Real.cos a2') (s2 : Real.sin a2 = Real.sin a2') :
    Joins l1 f1 l2 f2 a1' a2' d := by
  have e1 : heading l1 f1 a1' = heading l1 f1 a1 := by unfold heading; rw [c1, s1]
  have e2 : heading l2 f2 a2' = heading l2 f2 a2 := by unfold heading; rw [c2, s2]
  exact ⟨by rw [e1]; exact h.reach, by rw [e1, e2]; exact h.dir, h.nonneg, h.half⟩

theorem Joins.lon {l1 f1 l2 f2 a1 a2 d : ℝ} (h : Joins l1 f1 l2 f2 a1 a2 d) (k : ℤ) :
    Joins l1 f1 (l2 + k * (2 * Real.pi)) f2 a1 a2 d := by
  have e : heading (l2 + k * (2 * Real.pi)) f2 a2 = heading l2 f2 a2 := by
    unfold heading
    rw [Real.cos_add_int_mul_two_pi, Real.sin_add_int_mul_two_pi]
  exact ⟨by rw [position_add_two_pi]; exact h.reach, by rw [e]; exact h.dir, h.nonneg, h.half⟩

theorem Joins.mirror {l1 f1 l2 f2 a1 a2 d : ℝ} (h : Joins l1 f1 l2 f2 a1 a2 d) : Joins (-l1) f1 (-l2) f2 (-a1) (-a2) d := by
  have h1 := h.reach
  have h2 := h.dir
  have x1 := congrArg V3.x h1
  have y1 := congrArg V3.y h1
  have z1 := congrArg V3.z h1
  have x2 := congrArg V3.x h2
  have y2 := congrArg V3.y h2
  have z2 := congrArg V3.z h2
  simp only [position, heading, arc, arcDir] at x1 y1 z1 x2 y2 z2
  refine ⟨V3.ext' ?_ ?_ ?_, V3.ext' ?_ ?_ ?_, h.nonneg, h.half⟩ <;>
    simp only [position, heading, arc, arcDir, Real.cos_neg, Real.sin_neg]
  · linear_combination x1
  · linear_combination -y1
  · linear_combination z1
  · linear_combination x2
  · linear_combination -y2
  · linear_combination z2

theorem Joins.south {l1 f1 l2 f2 a1 a2 d : ℝ} (h : Joins l1 f1 l2 f2 a1 a2 d) :
    Joins l1 (-f1) l2 (-f2) (Real.pi - a1) (Real.pi - a2) d := by
  have h1 := h.reach
  have h2 := h.dir
  have x1 := congrArg V3.x h1
  have y1 := congrArg V3.y h1
  have z1 := congrArg V3.z h1
  have x2 := congrArg V3.x h2
  have y2 := congrArg V3.y h2
  have z2 := congrArg V3.z h2
  simp only [position, heading, arc, arcDir] at x1 y1 z1 x2 y2 z2
  refine ⟨V3.ext' ?_ ?_ ?_, V3.ext' ?_ ?_ ?_, h.nonneg, h.half⟩ <;>
    simp only [position, heading, arc, arcDir, Real.cos_neg, Real.sin_neg, Real.cos_pi_sub, Real.sin_pi_sub]
  · linear_combination x1
  · linear_combination y1
  · linear_combination -z1
  · linear_combination x2
  · linear_combination y2
  · linear_combination -z2

theorem Joins.reverse {l1 f1 l2 f2 a1 a2 d : ℝ} (h : Joins l1 f1 l2 f2 a1 a2 d) :
    Joins l2 f2 l1 f1 (a2 + Real.pi) (a1 + Real.pi) d := by
  have hn : ∀ l f a, heading l f (a + Real.pi) = ⟨-(heading l f a).x, -(heading l f a).y, -(heading l f a).z⟩ := by
    intro l f a
    unfold heading
    rw [Real.cos_add_pi, Real.sin_add_pi]
    simp only
    congr 1 <;> ring
  have e := Real.sin_sq_add_cos_sq d
  refine ⟨?_, ?_, h.nonneg, h.half⟩
  · rw [hn, h.reach, h.dir]
    apply V3.ext' <;> simp only [arc, arcDir]
    · linear_combination (-(position l1 f1).x) * e
    · linear_combination (-(position l1 f1).y) * e
    · linear_combination (-(position l1 f1).z) * e
  · rw [hn, hn, h.reach, h.dir]
    apply V3.ext' <;> simp only [arc, arcDir]
    · linear_combination (heading l1 f1 a1).x * e
    · linear_combination (heading l1 f1 a1).y * e
    · linear_combination (heading l1 f1 a1).z * e

theorem Joins.swap {l f1 f2 a1 a2 d : ℝ} (h : Joins 0 f1 l f2 a1 a2 d) : Joins 0 f2 l f1 (Real.pi - a2) (Real.pi - a1) d := by
  have h' := (h.reverse.mirror.rot l)
  rw [show -l + l = 0 by ring, show -0 + l = l by ring] at h'
  refine h'.congr ?_ ?_ ?_ ?_
  · rw [Real.cos_neg, Real.cos_add_pi, Real.cos_pi_sub]
  · rw [Real.sin_neg, Real.sin_add_pi, Real.sin_pi_sub]; ring
  · rw [Real.cos_neg, Real.cos_add_pi, Real.cos_pi_sub]
  · rw [Real.sin_neg, Real.sin_add_pi, Real.sin_pi_sub]; ring

/-- The length of the arc is the angle between the positions. -/
theorem Joins.angle {l1 f1 l2 f2 a1 a2 d : ℝ} (h : Joins l1 f1 l2 f2 a1 a2 d) : centralAngle l1 f1 l2 f2 = d := by
  rw [centralAngle_eq]
  have h1 := h.reach
  have hx := congrArg V3.x h1
  have hy := congrArg V3.y h1
  have hz := congrArg V3.z h1
  simp only [position, heading, arc] at hx hy hz
  have e1 := Real.sin_sq_add_cos_sq l1
  have e2 := Real.sin_sq_add_cos_sq f1
  have key : Real.sin f1 * Real.sin f2 + Real.cos f1 * Real.cos f2 * Real.cos (l1 - l2) = Real.cos d := by
    rw [Real.cos_sub]
    have : Real.sin f1 * Real.sin f2 + Real.cos f1 * Real.cos f2 * (Real.cos l1 * Real.cos l2 + Real.sin l1 * Real.sin l2)
        = Real.sin f1 * Real.sin f2 + Real.cos f1 * Real.cos l1 * (Real.cos f2 * Real.cos l2)
          + Real.cos f1 * Real.sin l1 * (Real.cos f2 * Real.sin l2) := by ring
    rw [this, hx, hy, hz]
    linear_combination (Real.cos d * Real.cos f1 ^ 2 - Real.sin d * Real.cos f1 * Real.cos a1 * Real.sin f1) * e1
      + Real.cos d * e2
  rw [key, Real.arccos_cos h.nonneg h.half]

/-! ### The canonical configuration -/

theorem rad_neg (y : ℝ) : rad (-y) = -rad y := by unfold rad; ring

theorem canonical_ok (x1 y1 x2 y2 : ℝ) :
    let c := canonical x1 y1 x2 y2
    c.y1 ≤ 0 ∧ c.y1 ≤ c.y2 ∧ c.y2 ≤ -c.y1 ∧ 0 ≤ c.x2 ∧ c.x2 ≤ 180 ∧ c.x2 = |reduceDeg (x2 - x1)| ∧ |c.y1 + c.y2| = |y1 + y2| ∧
    (c.y1 = y1 ∧ c.y2 = y2 ∨ c.y1 = -y1 ∧ c.y2 = -y2 ∨ c.y1 = y2 ∧ c.y2 = y1 ∨ c.y1 = -y2 ∧ c.y2 = -y1) := by
  intro c
  have hm := reduce_mem (x2 - x1)
  have hx : c.x2 = |reduceDeg (x2 - x1)| := by
    show (if reduceDeg (x2 - x1) < 0 ∨ 180 < reduceDeg (x2 - x1) then _ else _) = _
    by_cases hc : reduceDeg (x2 - x1) < 0
    · rw [if_pos (Or.inl hc), abs_of_neg hc]
    · rw [if_neg (by push Not; exact ⟨not_lt.mp hc, hm.2.le⟩), abs_of_nonneg (not_lt.mp hc)]
  have hx1 : 0 ≤ c.x2 := by rw [hx]; exact abs_nonneg _
  have hx2 : c.x2 ≤ 180 := by rw [hx, abs_le]; exact ⟨hm.1, hm.2.le⟩
  have hy1 : c.y1 = if 0 < (if |y1| < |y2| then y2 else y1) then -(if |y1| < |y2| then y2 else y1)
      else (if |y1| < |y2| then y2 else y1) := rfl
  have hy2 : c.y2 = if 0 < (if |y1| < |y2| then y2 else y1) then -(if |y1| < |y2| then y1 else y2)
      else (if |y1| < |y2| then y1 else y2) := rfl
  by_cases hf : |y1| < |y2|
  · simp only [hf, if_true] at hy1 hy2
    have h := abs_lt.mp hf
    by_cases hs : 0 < y2
    · rw [if_pos hs] at hy1 hy2
      rw [abs_of_pos hs] at h
      rw [hy1, hy2]
      exact ⟨by linarith, by linarith, by linarith, hx1, hx2, hx, by rw [← abs_neg]; congr 1; ring, Or.inr (Or.inr (Or.inr ⟨rfl, rfl⟩))⟩
    · rw [if_neg hs] at hy1 hy2
      rw [abs_of_nonpos (not_lt.mp hs)] at h
      rw [hy1, hy2]
      exact ⟨not_lt.mp hs, by linarith, by linarith, hx1, hx2, hx, by congr 1; ring, Or.inr (Or.inr (Or.inl ⟨rfl, rfl⟩))⟩
  · simp only [hf, if_false] at hy1 hy2
    have h := abs_le.mp (not_lt.mp hf)
    by_cases hs : 0 < y1
    · rw [if_pos hs] at hy1 hy2
      rw [abs_of_pos hs] at h
      rw [hy1, hy2]
      exact ⟨by linarith, by linarith, by linarith, hx1, hx2, hx, by rw [← abs_neg]; congr 1; ring, Or.inr (Or.inl ⟨rfl, rfl⟩)⟩
    · rw [if_neg hs] at hy1 hy2
      rw [abs_of_nonpos (not_lt.mp hs)] at h
      rw [hy1, hy2]
      exact ⟨not_lt.mp hs, by linarith, by linarith, hx1, hx2, hx, rfl, Or.inl ⟨rfl, rfl⟩⟩

/-- Undoing the canonical configuration gives the answer to the original question. -/
theorem undo_ok (x1 y1 x2 y2 a1 a2 d : ℝ)
    (h : Joins 0 (rad (canonical x1 y1 x2 y2).y1) (rad (canonical x1 y1 x2 y2).x2) (rad (canonical x1 y1 x2 y2).y2) a1 a2 d) :
    Joins (rad x1) (rad y1) (rad x2) (rad y2) (undo (canonical x1 y1 x2 y2) a1 a2).1 (undo (canonical x1 y1 x2 y2) a1 a2).2 d := by
  have hpi := Real.pi_pos
  set c := canonical x1 y1 x2 y2 with hc
  -- longitude
  set x := reduceDeg (x2 - x1) with hx
  obtain ⟨p, hp⟩ : ∃ p : ℝ × ℝ, p = if c.xflip then (-a1, -a2) else (a1, a2) := ⟨_, rfl⟩
  have hA : Joins 0 (rad c.y1) (rad x) (rad c.y2) p.1 p.2 d := by
    by_cases hm : x < 0 ∨ 180 < x
    · have e1 : c.xflip = true := by show decide _ = true; exact decide_eq_true hm
      have e2 : c.x2 = -x := by show (if x < 0 ∨ 180 < x then _ else _) = _; rw [if_pos hm]
      rw [e1, if_pos rfl] at hp
      rw [hp]
      rw [e2] at h
      have := h.mirror
      rw [neg_zero, rad_neg, neg_neg] at this
      exact this
    · have e1 : c.xflip = false := by show decide _ = false; exact decide_eq_false hm
      have e2 : c.x2 = x := by show (if x < 0 ∨ 180 < x then _ else _) = _; rw [if_neg hm]
      rw [e1, if_neg (by simp)] at hp
      rw [hp]
      rw [e2] at h
      exact h
  obtain ⟨q, hq⟩ : ∃ q : ℝ × ℝ, q = if c.yflip then (Real.pi - p.2, Real.pi - p.1) else p := ⟨_, rfl⟩
  have hu : undo c a1 a2 = if c.ysignswap then (Real.pi - q.1, Real.pi - q.2) else q := by
    unfold undo
    rw [hq, hp]
  have hB : Joins 0 (rad y1) (rad x) (rad y2) (undo c a1 a2).1 (undo c a1 a2).2 d := by
    have y1e : c.y1 = if 0 < (if |y1| < |y2| then y2 else y1) then -(if |y1| < |y2| then y2 else y1)
      else (if |y1| < |y2| then y2 else y1) := rfl
    have y2e : c.y2 = if 0 < (if |y1| < |y2| then y2 else y1) then -(if |y1| < |y2| then y1 else y2)
      else (if |y1| < |y2| then y1 else y2) := rfl
    rw [hu]
    by_cases hf : |y1| < |y2|
    · have f1 : c.yflip = true := decide_eq_true hf
      rw [f1, if_pos rfl] at hq
      simp only [hf, if_true] at y1e y2e
      by_cases hs : 0 < y2
      · have f2 : c.ysignswap = true := by
          show decide (0 < (if |y1| < |y2| then y2 else y1)) = true
          rw [if_pos hf]; exact decide_eq_true hs
        rw [if_pos hs] at y1e y2e
        rw [f2, if_pos rfl, hq]
        rw [y1e, y2e] at hA
        have := hA.swap.south
        rw [rad_neg, rad_neg, neg_neg, neg_neg] at this
        exact this
      · have f2 : c.ysignswap = false := by
          show decide (0 < (if |y1| < |y2| then y2 else y1)) = false
          rw [if_pos hf]; exact decide_eq_false hs
        rw [if_neg hs] at y1e y2e
        rw [f2, if_neg (by simp), hq]
        rw [y1e, y2e] at hA
        exact hA.swap
    · have f1 : c.yflip = false := decide_eq_false hf
      rw [f1, if_neg (by simp)] at hq
      simp only [hf, if_false] at y1e y2e
      by_cases hs : 0 < y1
      · have f2 : c.ysignswap = true := by
          show decide (0 < (if |y1| < |y2| then y2 else y1)) = true
          rw [if_neg hf]; exact decide_eq_true hs
        rw [if_pos hs] at y1e y2e
        rw [f2, if_pos rfl, hq]
        rw [y1e, y2e] at hA
        have := hA.south
        rw [rad_neg, rad_neg, neg_neg, neg_neg] at this
        exact this
      · have f2 : c.ysignswap = false := by
          show decide (0 < (if |y1| < |y2| then y2 else y1)) = false
          rw [if_neg hf]; exact decide_eq_false hs
        rw [if_neg hs] at y1e y2e
        rw [f2, if_neg (by simp), hq]
        rw [y1e, y2e] at hA
        exact hA
  obtain ⟨k, hk⟩ := reduce_cong (x2 - x1)
  have hC := (hB.rot (rad x1)).lon (-k)
  have e : rad x + rad x1 + ((-k : ℤ) : ℝ) * (2 * Real.pi) = rad x2 := by
    rw [hx, hk]; unfold rad; push_cast; ring
  rw [e, zero_add] at hC
  exact hC

/-! ### The triangle -/

theorem neb_ok {a0 a1 b1 b2 a2 : ℝ} (hb : 0 < Real.cos b2) (hc : 0 ≤ Real.cos a2) (h0 : 0 ≤ a2) (h1 : a2 ≤ Real.pi)
    (h : Real.cos a1 ^ 2 * Real.cos b1 ^ 2 + (Real.cos b2 ^ 2 - Real.cos b1 ^ 2) = (Real.cos a2 * Real.cos b2) ^ 2) :
    solveNEB a0 a1 b1 b2 = .ok (a2, neaSigma a2 b2, neaOmega a0 (neaSigma a2 b2)) := by
  have hn : nebAlpha a0 a1 b1 b2 = .ok a2 := by
    unfold nebAlpha pySqrt
    rw [h, if_neg (not_lt.mpr (sq_nonneg _)), Real.sqrt_sq (by positivity)]
    simp only [bind, Except.bind]
    unfold pyDiv
    rw [if_neg hb.ne']
    simp only
    rw [mul_div_cancel_right₀ _ hb.ne']
    unfold pyAcos
    rw [if_pos ⟨Real.neg_one_le_cos _, Real.cos_le_one _⟩, Real.arccos_cos h0 h1]
  unfold solveNEB
  rw [hn]
  rfl

/-- Two angles with the same sine and cosine, less than a full turn apart. -/
theorem angle_eq {s t : ℝ} (hc : Real.cos s = Real.cos t) (hs : Real.sin s = Real.sin t) (h1 : -(2 * Real.pi) < s - t)
    (h2 : s - t < 2 * Real.pi) : s = t := by
  have hpi := Real.pi_pos
  have hcs : Real.cos (s - t) = 1 := by
    rw [Real.cos_sub, hc, hs]; have := Real.sin_sq_add_cos_sq t; nlinarith
  obtain ⟨k, hk⟩ := (Real.cos_eq_one_iff _).mp hcs
  have k1 : (k : ℝ) < 1 := by by_contra hcon; push Not at hcon; nlinarith
  have k2 : (-1 : ℝ) < k := by by_contra hcon; push Not at hcon; nlinarith
  have k1' : k < 1 := by exact_mod_cast k1
  have k2' : -1 < k := by exact_mod_cast k2
  have k0 : k = 0 := by omega
  rw [k0] at hk
  push_cast at hk
  linarith

theorem atan2_right {y x : ℝ} (hx : 0 ≤ x) : -(Real.pi / 2) ≤ atan2 y x ∧ atan2 y x ≤ Real.pi / 2 := by
  have := (Complex.abs_arg_le_pi_div_two_iff (z := ⟨x, y⟩)).mpr hx
  exact abs_le.mp this

theorem atan2_below {y x : ℝ} (hy : y < 0) : atan2 y x < 0 := Complex.arg_neg_iff.mpr hy

theorem alphaZero_eq {az1 b1 az2 b2 : ℝ} (c1 : 0 ≤ Real.cos b1) (c2 : 0 ≤ Real.cos b2)
    (h : Real.sin az1 * Real.cos b1 = Real.sin az2 * Real.cos b2) : alphaZero az2 b2 = alphaZero az1 b1 := by
  have N1 := node_ok b1 az1 c1
  have N2 := node_ok b2 az2 c2
  have s12 : Real.sin (alphaZero az2 b2) = Real.sin (alphaZero az1 b1) := by rw [N1.s0, N2.s0, h]
  have c12 : Real.cos (alphaZero az2 b2) = Real.cos (alphaZero az1 b1) := by
    have f1 := Real.sin_sq_add_cos_sq (alphaZero az2 b2)
    have f2 := Real.sin_sq_add_cos_sq (alphaZero az1 b1)
    rw [s12] at f1
    exact (sq_eq_sq₀ N2.c0 N1.c0).mp (by linarith)
  have m1 : -Real.pi < alphaZero az1 b1 ∧ alphaZero az1 b1 ≤ Real.pi := atan2_mem _ _
  have m2 : -Real.pi < alphaZero az2 b2 ∧ alphaZero az2 b2 ≤ Real.pi := atan2_mem _ _
  exact angle_eq c12 s12 (by linarith [m1.2, m2.1]) (by linarith [m1.1, m2.2])

/-- `solve_vincenty` on a sphere in the canonical configuration. -/
theorem vincenty_canonical (R lam b1 b2 : ℝ) (hR : 0 < R) (hl0 : 0 < lam) (hl1 : lam < Real.pi)
    (h1 : -(Real.pi / 2) < b1) (hb : b1 < 0) (h12 : b1 ≤ b2) (h21 : b2 ≤ -b1) :
    ∃ az2 sg, Joins 0 b1 lam b2 (solveVincenty R 0 lam b1 b2).1 az2 sg ∧ 0 < Real.sin (solveVincenty R 0 lam b1 b2).1 ∧
      0 ≤ az2 ∧ az2 ≤ Real.pi ∧ 0 ≤ Real.cos az2 ∧
      Real.sin (solveVincenty R 0 lam b1 b2).1 * Real.cos b1 = Real.sin az2 * Real.cos b2 := by
  have hpi := Real.pi_pos
  have h1' : b1 < Real.pi / 2 := by linarith
  have h2 : -(Real.pi / 2) < b2 := by linarith
  have h2' : b2 < Real.pi / 2 := by linarith
  have cb1 : 0 < Real.cos b1 := Real.cos_pos_of_mem_Ioo ⟨h1, h1'⟩
  have cb2 : 0 < Real.cos b2 := Real.cos_pos_of_mem_Ioo ⟨h2, h2'⟩
  have sl : 0 < Real.sin lam := Real.sin_pos_of_pos_of_lt_pi hl0 hl1
  obtain ⟨r1, r2, r3⟩ := C95_reach R lam b1 b2 hR h1 h1' h2 h2'
  have hv := vincenty_sphere R lam b1 b2 h1 h1' h2 h2'
  obtain ⟨s0, s1, hs, hc, p1, p2, q1, q2⟩ := vincenty_sides lam b1 b2
  have hav := C95_arrival R lam b1 b2 hR h1 h1' h2 h2'
  obtain ⟨az1, haz1⟩ : ∃ t, t = (solveVincenty R 0 lam b1 b2).1 := ⟨_, rfl⟩
  obtain ⟨az2, haz2⟩ : ∃ t, t = (solveVincenty R 0 lam b1 b2).2.1 := ⟨_, rfl⟩
  obtain ⟨sd, hsd⟩ : ∃ t, t = (solveVincenty R 0 lam b1 b2).2.2 := ⟨_, rfl⟩
  rw [← haz1, ← haz2, ← hsd] at hav
  rw [← haz1, ← hsd] at r1
  rw [← hsd] at r2 r3
  rw [← haz1]
  rw [hv] at haz1 haz2 hsd
  dsimp only at haz1 haz2 hsd
  rw [← haz1] at p1 p2
  rw [← haz2] at q1 q2
  have e3 : sd / R = atan2 (Real.sqrt ((Real.cos b1 * Real.sin b2 - Real.sin b1 * Real.cos b2 * Real.cos lam) ^ 2
          + (Real.cos b2 * Real.sin lam) ^ 2)) (Real.sin b1 * Real.sin b2 + Real.cos b1 * Real.cos b2 * Real.cos lam) := by
    rw [hsd, mul_div_cancel_left₀ _ hR.ne']
  rw [← e3] at hs
  have hz1p : 0 < Real.sqrt ((Real.cos b1 * Real.sin b2 - Real.sin b1 * Real.cos b2 * Real.cos lam) ^ 2
          + (Real.cos b2 * Real.sin lam) ^ 2) := Real.sqrt_pos.mpr (by positivity)
  have az2m : -Real.pi < az2 ∧ az2 ≤ Real.pi := by rw [haz2]; exact atan2_mem _ _
  clear haz1 haz2 hsd e3 s0 s1 hc hv
  generalize Real.sqrt ((Real.cos b1 * Real.sin b2 - Real.sin b1 * Real.cos b2 * Real.cos lam) ^ 2
          + (Real.cos b2 * Real.sin lam) ^ 2) = z1 at *
  have hsgn : sd ≠ 0 := by intro h; rw [h, zero_div, Real.sin_zero] at hs; linarith
  have hsgn' : sd ≠ R * Real.pi := by
    intro h; rw [h, mul_div_cancel_left₀ _ hR.ne', Real.sin_pi] at hs; linarith
  have rd := hav hsgn hsgn'
  have J : Joins 0 b1 lam b2 az1 az2 (sd / R) := ⟨r1, rd, r2, r3⟩
  have sa1 : 0 < Real.sin az1 := by
    by_contra hcon; push Not at hcon
    have : 0 < Real.cos b2 * Real.sin lam := by positivity
    nlinarith
  have sa2 : 0 < Real.sin az2 := by
    by_contra hcon; push Not at hcon
    have : 0 < Real.cos b1 * Real.sin lam := by positivity
    nlinarith
  have az2p : 0 ≤ az2 := by
    by_contra hcon; push Not at hcon
    have := Real.sin_neg_of_neg_of_neg_pi_lt hcon az2m.1
    linarith
  have ca2 : 0 ≤ Real.cos az2 := by
    have hk : 0 ≤ -Real.sin b1 * Real.cos b2 + Real.cos b1 * Real.sin b2 * Real.cos lam := by
      have g1 : 0 ≤ Real.sin (b2 - b1) := Real.sin_nonneg_of_nonneg_of_le_pi (by linarith) (by linarith)
      have g2 : 0 ≤ Real.sin (-b1 - b2) := Real.sin_nonneg_of_nonneg_of_le_pi (by linarith) (by linarith)
      rw [Real.sin_sub] at g1 g2
      rw [Real.sin_neg, Real.cos_neg] at g2
      have c1 := Real.cos_le_one lam
      have c2 := Real.neg_one_le_cos lam
      nlinarith
    rw [← q1] at hk
    by_contra hcon; push Not at hcon
    nlinarith
  refine ⟨az2, sd / R, J, sa1, az2p, az2m.2, ca2, ?_⟩
  apply mul_left_cancel₀ hz1p.ne'
  linear_combination Real.cos b1 * p2 - Real.cos b2 * q2

/-- The arcs and longitudes from the node that `ellipsoidal_inverse` computes differ by those between the positions. -/
theorem node_differences {lam b1 b2 az1 az2 sg : ℝ} (hl0 : 0 < lam) (hl1 : lam < Real.pi)
    (h1 : -(Real.pi / 2) < b1) (hb : b1 < 0) (h12 : b1 ≤ b2) (h21 : b2 ≤ -b1) (J : Joins 0 b1 lam b2 az1 az2 sg)
    (sa1 : 0 < Real.sin az1) (ca2 : 0 ≤ Real.cos az2) (hsin : Real.sin az1 * Real.cos b1 = Real.sin az2 * Real.cos b2) :
    neaSigma az2 b2 - neaSigma az1 b1 = sg ∧
    neaOmega (alphaZero az1 b1) (neaSigma az2 b2) - neaOmega (alphaZero az1 b1) (neaSigma az1 b1) = lam := by
  have hpi := Real.pi_pos
  have s0 := J.nonneg
  have s1 := J.half
  have cb1 : 0 < Real.cos b1 := Real.cos_pos_of_mem_Ioo ⟨h1, by linarith⟩
  have cb2 : 0 < Real.cos b2 := Real.cos_pos_of_mem_Ioo ⟨by linarith, by linarith⟩
  have N1 := node_ok b1 az1 cb1.le
  have N2 := node_ok b2 az2 cb2.le
  rw [alphaZero_eq cb1.le cb2.le hsin] at N2
  have sb1 : Real.sin b1 < 0 := Real.sin_neg_of_neg_of_neg_pi_lt hb (by linarith)
  have r1m : -Real.pi < neaSigma az1 b1 ∧ neaSigma az1 b1 < 0 := ⟨(atan2_mem _ _).1, atan2_below sb1⟩
  have r2m : -(Real.pi / 2) ≤ neaSigma az2 b2 ∧ neaSigma az2 b2 ≤ Real.pi / 2 := atan2_right (by positivity)
  have ssg1 : Real.sin (neaSigma az1 b1) < 0 := Real.sin_neg_of_neg_of_neg_pi_lt r1m.2 r1m.1
  have hs0 := N1.s0
  have hsa0 : 0 < Real.sin (alphaZero az1 b1) := by rw [hs0]; positivity
  have w1m : -Real.pi < neaOmega (alphaZero az1 b1) (neaSigma az1 b1) ∧ neaOmega (alphaZero az1 b1) (neaSigma az1 b1) < 0 :=
    ⟨(atan2_mem _ _).1, atan2_below (mul_neg_of_pos_of_neg hsa0 ssg1)⟩
  have csg2 : 0 ≤ Real.cos (neaSigma az2 b2) := Real.cos_nonneg_of_mem_Icc ⟨r2m.1, r2m.2⟩
  have w2m : -(Real.pi / 2) ≤ neaOmega (alphaZero az1 b1) (neaSigma az2 b2) ∧
    neaOmega (alphaZero az1 b1) (neaSigma az2 b2) ≤ Real.pi / 2 := atan2_right csg2
  generalize neaOmega (alphaZero az1 b1) (neaSigma az1 b1) = w1 at *
  generalize neaOmega (alphaZero az1 b1) (neaSigma az2 b2) = w2 at *
  generalize alphaZero az1 b1 = a0 at *
  generalize neaSigma az1 b1 = sg1 at *
  generalize neaSigma az2 b2 = sg2 at *
  have hca0 : 0 < Real.cos a0 := by
    rcases N1.c0.lt_or_eq with h | h
    · exact h
    · have hz := N1.z
      rw [← h, zero_mul] at hz; linarith
  have hp := J.reach
  have hd := J.dir
  rw [arc_eq (x := 0) N1 cb1 sg] at hp
  have hz2 := congrArg V3.z hp
  have hz3 := congrArg V3.z hd
  simp only [rot, position] at hz2
  simp only [heading, arcDir, position] at hz3
  have zz : Real.sin sg2 = Real.sin (sg1 + sg) := by
    apply mul_left_cancel₀ hca0.ne'
    have := N2.z
    linarith
  have zc : Real.cos sg2 = Real.cos (sg1 + sg) := by
    apply mul_left_cancel₀ hca0.ne'
    have k1 := N2.n
    have k2 := N1.n
    have k3 := N1.z
    rw [Real.cos_add]
    linear_combination k1 + hz3 + Real.sin sg * k3 - Real.cos sg * k2
  have hsig : sg2 = sg1 + sg := angle_eq zc zz (by linarith) (by linarith)
  refine ⟨by linarith, ?_⟩
  have P2 := node_position N2
  rw [← hsig, ← P2, rot_position] at hp
  have hx2 := congrArg V3.x hp
  have hy2 := congrArg V3.y hp
  simp only [position] at hx2 hy2
  have k1 := mul_left_cancel₀ cb2.ne' hx2
  have k2 := mul_left_cancel₀ cb2.ne' hy2
  have := angle_eq k1 k2 (by linarith) (by linarith)
  linarith

/-- The azimuth that `solve_vincenty` gives solves the triangle exactly on a sphere, in the canonical configuration. -/
theorem newton_ok (R lam b1 b2 tol : ℝ) (n : Nat) (hR : 0 < R) (ht : 0 ≤ tol) (hl0 : 0 < lam) (hl1 : lam < Real.pi)
    (h1 : -(Real.pi / 2) < b1) (hb : b1 < 0) (h12 : b1 ≤ b2) (h21 : b2 ≤ -b1) :
    ∃ t, newton R R lam b1 b2 tol (n + 1) (solveVincenty R 0 lam b1 b2).1 = .ok t ∧
      Joins 0 b1 lam b2 t.alpha1 t.alpha2 (t.sigma2 - t.sigma1) := by
  have hpi := Real.pi_pos
  have cb2 : 0 < Real.cos b2 := Real.cos_pos_of_mem_Ioo ⟨by linarith, by linarith⟩
  obtain ⟨az2, sg, J, sa1, az2p, az2m, ca2, hsin⟩ := vincenty_canonical R lam b1 b2 hR hl0 hl1 h1 hb h12 h21
  generalize (solveVincenty R 0 lam b1 b2).1 = az1 at *
  obtain ⟨d1, d2⟩ := node_differences hl0 hl1 h1 hb h12 h21 J sa1 ca2 hsin
  have hneb := neb_ok (a0 := alphaZero az1 b1) (a1 := az1) (b1 := b1) cb2 ca2 az2p az2m (by
    have t1 := Real.sin_sq_add_cos_sq az1
    have t2 := Real.sin_sq_add_cos_sq az2
    have t3 : (Real.sin az1 * Real.cos b1) ^ 2 = (Real.sin az2 * Real.cos b2) ^ 2 := by rw [hsin]
    linear_combination Real.cos b1 ^ 2 * t1 - Real.cos b2 ^ 2 * t2 - t3)
  refine ⟨⟨alphaZero az1 b1, az1, az2, neaSigma az1 b1, neaSigma az2 b2⟩, ?_, ?_⟩
  · unfold newton
    dsimp only
    rw [hneb]
    simp only [bind, Except.bind]
    have hf : (R - R) / R = 0 := by simp
    have hk : ∀ t : ℝ, (R - R) / R * (2 - (R - R) / R) / (1 - (R - R) / R * (2 - (R - R) / R)) * t = 0 := by
      intro t; rw [hf]; ring
    rw [hk, eps_zero]
    have hzero : lambdaError ((R - R) / R) lam 0 (alphaZero az1 b1) (neaSigma az1 b1)
        (neaOmega (alphaZero az1 b1) (neaSigma az1 b1)) (neaSigma az2 b2) (neaOmega (alphaZero az1 b1) (neaSigma az2 b2)) = 0 := by
      unfold lambdaError
      dsimp only
      rw [hf, zero_mul, zero_mul, zero_mul, sub_zero, sub_zero, d2, sub_self]
    rw [hzero, abs_zero, if_neg (not_lt.mpr ht)]
  · show Joins 0 b1 lam b2 az1 az2 (neaSigma az2 b2 - neaSigma az1 b1)
    rw [d1]
    exact J

theorem atan2_polar_unit {t : ℝ} (h1 : -Real.pi < t) (h2 : t ≤ Real.pi) : atan2 (Real.sin t) (Real.cos t) = t := by
  have := atan2_polar one_pos h1 h2
  rwa [one_mul, one_mul] at this

/-- The meridional cases. -/
theorem meridian_ok (b1 b2 : ℝ) (h1 : -(Real.pi / 2) < b1) (hb : b1 < 0) (h12 : b1 ≤ b2) (h21 : b2 ≤ -b1) (a0 : ℝ) :
    (∃ a2 w2, solveNEB a0 0 b1 b2 = .ok (a2, b2, w2)) ∧ neaSigma 0 b1 = b1 ∧ Joins 0 b1 0 b2 0 0 (b2 - b1) ∧
    (∃ a2 w2, solveNEB a0 Real.pi b1 b2 = .ok (a2, b2, w2)) ∧ neaSigma Real.pi b1 = -Real.pi - b1 ∧
    Joins 0 b1 Real.pi b2 Real.pi 0 (b2 - (-Real.pi - b1)) := by
  have hpi := Real.pi_pos
  have cb2 : 0 < Real.cos b2 := Real.cos_pos_of_mem_Ioo ⟨by linarith, by linarith⟩
  have hs2 : neaSigma 0 b2 = b2 := by
    unfold neaSigma
    rw [Real.cos_zero, one_mul]
    exact atan2_polar_unit (by linarith) (by linarith)
  have n1 : solveNEB a0 0 b1 b2 = .ok (0, b2, neaOmega a0 b2) := by
    have := neb_ok (a0 := a0) (a1 := 0) (b1 := b1) (a2 := 0) cb2 (by simp) le_rfl hpi.le (by rw [Real.cos_zero]; ring)
    rwa [hs2] at this
  have n2 : solveNEB a0 Real.pi b1 b2 = .ok (0, b2, neaOmega a0 b2) := by
    have := neb_ok (a0 := a0) (a1 := Real.pi) (b1 := b1) (a2 := 0) cb2 (by simp) le_rfl hpi.le
      (by rw [Real.cos_zero, Real.cos_pi]; ring)
    rwa [hs2] at this
  refine ⟨⟨_, _, n1⟩, ?_, ?_, ⟨_, _, n2⟩, ?_, ?_⟩
  · unfold neaSigma
    rw [Real.cos_zero, one_mul]
    exact atan2_polar_unit (by linarith) (by linarith)
  · refine ⟨V3.ext' ?_ ?_ ?_, V3.ext' ?_ ?_ ?_, by linarith, by linarith⟩ <;>
      simp only [position, heading, arc, arcDir, Real.cos_zero, Real.sin_zero, mul_one, mul_zero, zero_mul, one_mul]
    · have := Real.cos_add (b2 - b1) b1; rw [sub_add_cancel] at this; linarith
    · ring
    · have := Real.sin_add (b2 - b1) b1; rw [sub_add_cancel] at this; linarith
    · have := Real.sin_add (b2 - b1) b1; rw [sub_add_cancel] at this; linarith
    · ring
    · have := Real.cos_add (b2 - b1) b1; rw [sub_add_cancel] at this; linarith
  · unfold neaSigma
    have e1 : Real.sin b1 = Real.sin (-Real.pi - b1) := by
      rw [show -Real.pi - b1 = -(b1 + Real.pi) by ring, Real.sin_neg, Real.sin_add_pi]; ring
    have e2 : Real.cos Real.pi * Real.cos b1 = Real.cos (-Real.pi - b1) := by
      rw [show -Real.pi - b1 = -(b1 + Real.pi) by ring, Real.cos_neg, Real.cos_add_pi, Real.cos_pi]; ring
    rw [e2, e1]
    exact atan2_polar_unit (by linarith) (by linarith)
  · have e : b2 - (-Real.pi - b1) = (b2 + b1) + Real.pi := by ring
    have c := Real.cos_sub (b2 + b1) b1
    have s := Real.sin_sub (b2 + b1) b1
    rw [add_sub_cancel_right] at c s
    rw [e]
    refine ⟨V3.ext' ?_ ?_ ?_, V3.ext' ?_ ?_ ?_, by linarith, by linarith⟩ <;>
      simp only [position, heading, arc, arcDir, Real.cos_zero, Real.sin_zero, mul_one, mul_zero, zero_mul, one_mul,
        Real.cos_add_pi, Real.sin_add_pi, Real.cos_pi, Real.sin_pi]
    · linear_combination -c
    · ring
    · linear_combination s
    · linear_combination s
    · ring
    · linear_combination c

/-- `triangle` on a sphere. -/
theorem triangle_ok (root : ℝ → ℝ → (ℝ → ℝ) → ℝ → Except Err ℝ) (R tol : ℝ) (c : Canon) (hR : 0 < R) (ht : 0 ≤ tol)
    (hy0 : -90 < c.y1) (hy1 : c.y1 < 0) (hy2 : c.y1 ≤ c.y2) (hy3 : c.y2 ≤ -c.y1) (hx0 : 0 ≤ c.x2) (hx1 : c.x2 ≤ 180)
    (hx : c.x2 = 0 ∨ c.x2 = 180 ∨ 87 / 10000 < |rad c.x2 - Real.pi| ∧ 87 / 10000 < |rad (c.y1 + c.y2)|) :
    ∃ t, triangle root R R tol c = .ok t ∧
      Joins 0 (rad c.y1) (rad c.x2) (rad c.y2) t.alpha1 t.alpha2 (t.sigma2 - t.sigma1) := by
  have hpi := Real.pi_pos
  have hf : (R - R) / R = 0 := by simp
  have e1 : c.y1 * Real.pi / 180 = rad c.y1 := by unfold rad; ring
  have e2 : c.y2 * Real.pi / 180 = rad c.y2 := by unfold rad; ring
  have e3 : (c.x2 - 0) * Real.pi / 180 = rad c.x2 := by unfold rad; ring
  have g1 : -(Real.pi / 2) < rad c.y1 := by unfold rad; nlinarith
  have g2 : rad c.y1 < 0 := by unfold rad; nlinarith
  have g3 : rad c.y1 ≤ rad c.y2 := by unfold rad; nlinarith
  have g4 : rad c.y2 ≤ -rad c.y1 := by unfold rad; nlinarith
  have b1 : Real.arctan ((1 - 0) * Real.tan (rad c.y1)) = rad c.y1 := by
    rw [sub_zero, one_mul, Real.arctan_tan (by linarith) (by linarith)]
  have b2 : Real.arctan ((1 - 0) * Real.tan (rad c.y2)) = rad c.y2 := by
    rw [sub_zero, one_mul, Real.arctan_tan (by linarith) (by linarith)]
  obtain ⟨⟨p2, q2, m1⟩, m2, m3, ⟨p3, q3, m4⟩, m5, m6⟩ := meridian_ok _ _ g1 g2 g3 g4 Real.pi
  obtain ⟨⟨p4, q4, m7⟩, -, -, -⟩ := meridian_ok _ _ g1 g2 g3 g4 (alphaZero 0 (rad c.y1))
  unfold triangle
  dsimp only
  rw [e1, e2, e3, hf, b1, b2]
  by_cases h0 : 0 = c.x2
  · rw [if_pos h0, m7]
    refine ⟨_, rfl, ?_⟩
    show Joins 0 (rad c.y1) (rad c.x2) (rad c.y2) 0 0 (rad c.y2 - neaSigma 0 (rad c.y1))
    rw [m2, ← h0, show rad 0 = 0 by unfold rad; ring]
    exact m3
  · rw [if_neg h0]
    have hmod : pyModR (rad c.x2) (2 * Real.pi) = rad c.x2 := pyModR_self (by unfold rad; positivity) (by unfold rad; nlinarith)
    rw [hmod]
    by_cases h180 : c.x2 = 180
    · have e : rad c.x2 = Real.pi := by rw [h180]; unfold rad; ring
      rw [if_pos (by rw [e]; norm_num), if_neg (by linarith), m4]
      refine ⟨_, rfl, ?_⟩
      show Joins 0 (rad c.y1) (rad c.x2) (rad c.y2) Real.pi _ (rad c.y2 - neaSigma Real.pi (rad c.y1))
      rw [m5, if_neg (by linarith), e]
      exact m6
    · have hx' := (hx.resolve_left (fun h => h0 h.symm)).resolve_left h180
      rw [if_neg (by have := hx'.1; intro h; norm_num at h this ⊢; linarith)]
      have hs : rad c.y1 + rad c.y2 = rad (c.y1 + c.y2) := by unfold rad; ring
      rw [hs, if_pos hx']
      have hp : 0 < c.x2 := lt_of_le_of_ne hx0 h0
      have hl : c.x2 < 180 := lt_of_le_of_ne hx1 h180
      exact newton_ok R (rad c.x2) (rad c.y1) (rad c.y2) tol 99 hR ht (by unfold rad; positivity) (by unfold rad; nlinarith) g1 g2 g3 g4

/-! ### C97: the inverse problem -/

/-- The answer on a sphere. -/
theorem inverse_sphere (root : ℝ → ℝ → (ℝ → ℝ) → ℝ → Except Err ℝ) (R x1 y1 x2 y2 tol : ℝ) (hR : 0 < R) (ht : 0 ≤ tol)
    (hy1 : -90 < y1) (hy1' : y1 < 90) (hy2 : -90 < y2) (hy2' : y2 < 90) (hne : y1 ≠ 0 ∨ y2 ≠ 0)
    (hx : reduceDeg (x2 - x1) = 0 ∨ reduceDeg (x2 - x1) = -180 ∨
      87 / 10000 < |rad (|reduceDeg (x2 - x1)|) - Real.pi| ∧ 87 / 10000 < |rad (y1 + y2)|) :
    ∃ az baz s, ellipsoidalInverse root R R x1 y1 x2 y2 tol = .ok (az, baz, s) ∧ -180 ≤ az ∧ az < 180 ∧ -180 ≤ baz ∧ baz < 180 ∧
      Joins (rad x1) (rad y1) (rad x2) (rad y2) (rad az) (rad baz + Real.pi) (s / R) := by
  have hpi := Real.pi_pos
  obtain ⟨k1, k2, k3, k4, k5, k6, k7, k8⟩ := canonical_ok x1 y1 x2 y2
  have hlo : -90 < (canonical x1 y1 x2 y2).y1 := by
    rcases k8 with ⟨h, -⟩ | ⟨h, -⟩ | ⟨h, -⟩ | ⟨h, -⟩ <;> rw [h] <;> linarith
  have hneg : (canonical x1 y1 x2 y2).y1 < 0 := by
    rcases k1.lt_or_eq with h | h
    · exact h
    · exfalso
      rw [h] at k2 k3
      have h2 : (canonical x1 y1 x2 y2).y2 = 0 := by linarith
      rw [h, h2] at k8
      rcases k8 with ⟨u, v⟩ | ⟨u, v⟩ | ⟨u, v⟩ | ⟨u, v⟩
      · exact hne.elim (fun w => w u.symm) (fun w => w v.symm)
      · exact hne.elim (fun w => w (by linarith)) (fun w => w (by linarith))
      · exact hne.elim (fun w => w v.symm) (fun w => w u.symm)
      · exact hne.elim (fun w => w (by linarith)) (fun w => w (by linarith))
  have habs : |rad ((canonical x1 y1 x2 y2).y1 + (canonical x1 y1 x2 y2).y2)| = |rad (y1 + y2)| := by
    unfold rad
    rw [abs_div, abs_mul, k7, ← abs_mul, ← abs_div]
  obtain ⟨t, t1, t2⟩ := triangle_ok root R tol (canonical x1 y1 x2 y2) hR ht hlo hneg k2 k3 k4 k5 (by
    rw [k6, ← k6, habs, k6]
    rcases hx with h | h | h
    · left; rw [h, abs_zero]
    · right; left; rw [h]; norm_num
    · right; right; exact h)
  have hu := undo_ok x1 y1 x2 y2 t.alpha1 t.alpha2 _ t2
  set p := undo (canonical x1 y1 x2 y2) t.alpha1 t.alpha2 with hp
  have hf : (R - R) / R = 0 := by simp
  have hk : ∀ s : ℝ, (R - R) / R * (2 - (R - R) / R) / (1 - (R - R) / R * (2 - (R - R) / R)) * s = 0 := by
    intro s; rw [hf]; ring
  have m1 := pyModR_mem (p.1 * 180 / Real.pi + 180) (show (0 : ℝ) < 360 by norm_num)
  have m2 := pyModR_mem ((p.2 + Real.pi) * 180 / Real.pi + 180) (show (0 : ℝ) < 360 by norm_num)
  obtain ⟨i, hi⟩ := pyModR_cong (p.1 * 180 / Real.pi + 180) 360
  obtain ⟨j, hj⟩ := pyModR_cong ((p.2 + Real.pi) * 180 / Real.pi + 180) 360
  refine ⟨pyModR (p.1 * 180 / Real.pi + 180) 360 - 180, pyModR ((p.2 + Real.pi) * 180 / Real.pi + 180) 360 - 180,
    t.sigma2 * R - t.sigma1 * R, ?_, by linarith, by linarith, by linarith, by linarith, ?_⟩
  · unfold ellipsoidalInverse
    rw [if_neg (by rintro ⟨h, h'⟩; exact hne.elim (fun w => w (h.trans h')) (fun w => w h'))]
    dsimp only
    rw [t1]
    simp only [bind, Except.bind]
    rw [hk, eps_zero, A1_zero, C1_zero, C1_zero, ← hp]
    simp only [add_zero, one_mul]
  · have es : (t.sigma2 * R - t.sigma1 * R) / R = t.sigma2 - t.sigma1 := by field_simp
    have r1 : rad (pyModR (p.1 * 180 / Real.pi + 180) 360 - 180) = p.1 + i * (2 * Real.pi) := by
      rw [hi]; unfold rad; field_simp; ring
    have r2 : rad (pyModR ((p.2 + Real.pi) * 180 / Real.pi + 180) 360 - 180) + Real.pi = p.2 + (j + 1 : ℤ) * (2 * Real.pi) := by
      rw [hj]; unfold rad; push_cast; field_simp; ring
    rw [es, r1, r2]
    exact hu.congr (Real.cos_add_int_mul_two_pi _ _).symm (Real.sin_add_int_mul_two_pi _ _).symm
      (Real.cos_add_int_mul_two_pi _ _).symm (Real.sin_add_int_mul_two_pi _ _).symm

/-- C97, partial (spheres only; not for latitudes that nearly cancel or longitudes nearly opposite, nor for two points on the
equator, for which see C77).  The inverse problem gives the great circle between the two positions: travelling in the direction
`az` for the distance `s` leads to the second position, travelling in the direction `baz` for that distance leads from there to
the first, and `s` is the great-circle distance. -/
theorem C97_sphere_partial (root : ℝ → ℝ → (ℝ → ℝ) → ℝ → Except Err ℝ) (R x1 y1 x2 y2 tol : ℝ) (hR : 0 < R) (ht : 0 ≤ tol)
    (hy1 : -90 < y1) (hy1' : y1 < 90) (hy2 : -90 < y2) (hy2' : y2 < 90) (hne : y1 ≠ 0 ∨ y2 ≠ 0)
    (hx : reduceDeg (x2 - x1) = 0 ∨ reduceDeg (x2 - x1) = -180 ∨
      87 / 10000 < |rad (|reduceDeg (x2 - x1)|) - Real.pi| ∧ 87 / 10000 < |rad (y1 + y2)|) :
    ∃ az baz s, ellipsoidalInverse root R R x1 y1 x2 y2 tol = .ok (az, baz, s) ∧ -180 ≤ az ∧ az < 180 ∧ -180 ≤ baz ∧ baz < 180 ∧
      position (rad x2) (rad y2) = arc (position (rad x1) (rad y1)) (heading (rad x1) (rad y1) (rad az)) (s / R) ∧
      position (rad x1) (rad y1) = arc (position (rad x2) (rad y2)) (heading (rad x2) (rad y2) (rad baz)) (s / R) ∧
      s = R * centralAngle (rad x1) (rad y1) (rad x2) (rad y2) := by
  obtain ⟨az, baz, s, e, a1, a2, b1, b2, J⟩ := inverse_sphere root R x1 y1 x2 y2 tol hR ht hy1 hy1' hy2 hy2' hne hx
  refine ⟨az, baz, s, e, a1, a2, b1, b2, J.reach, ?_, ?_⟩
  · have r := J.reverse.congr (a1' := rad baz) (a2' := rad az + Real.pi)
      (by rw [Real.cos_add_pi, Real.cos_add_pi, neg_neg]) (by rw [Real.sin_add_pi, Real.sin_add_pi, neg_neg]) rfl rfl
    exact r.reach
  · rw [J.angle]; field_simp

/-- C97 fails for latitudes that nearly cancel: for two positions on a sphere whose latitudes add up to less than
half a degree either way, and that are neither on one meridian nor on opposite ones, the inverse problem raises ZeroDivisionError. -/
theorem C97_violated_cancelling (root : ℝ → ℝ → (ℝ → ℝ) → ℝ → Except Err ℝ) (R x1 y1 x2 y2 tol : ℝ)
    (hne : y1 ≠ 0 ∨ y2 ≠ 0) (hx0 : reduceDeg (x2 - x1) ≠ 0)
    (hx : 1 / 10 ^ 12 ≤ |rad (|reduceDeg (x2 - x1)|) - Real.pi|) (hy : |rad (y1 + y2)| ≤ 87 / 10000) :
    ellipsoidalInverse root R R x1 y1 x2 y2 tol = .error .zeroDivision := by
  have hpi := Real.pi_pos
  obtain ⟨k1, k2, k3, k4, k5, k6, k7, k8⟩ := canonical_ok x1 y1 x2 y2
  have habs : |rad ((canonical x1 y1 x2 y2).y1 + (canonical x1 y1 x2 y2).y2)| = |rad (y1 + y2)| := by
    unfold rad
    rw [abs_div, abs_mul, k7, ← abs_mul, ← abs_div]
  set c := canonical x1 y1 x2 y2
  have hf : (R - R) / R = 0 := by simp
  have e1 : c.y1 * Real.pi / 180 = rad c.y1 := by unfold rad; ring
  have e2 : c.y2 * Real.pi / 180 = rad c.y2 := by unfold rad; ring
  have e3 : (c.x2 - 0) * Real.pi / 180 = rad c.x2 := by unfold rad; ring
  have hmod : pyModR (rad c.x2) (2 * Real.pi) = rad c.x2 := pyModR_self (by unfold rad; positivity) (by unfold rad; nlinarith)
  have htr : triangle root R R tol c = .error .zeroDivision := by
    unfold triangle
    dsimp only
    rw [e1, e2, e3, hf, hmod]
    rw [if_neg (by rw [k6]; intro h; exact hx0 (abs_eq_zero.mp h.symm)), if_neg (by rw [k6]; exact not_lt.mpr hx)]
    have hs : rad c.y1 + rad c.y2 = rad (c.y1 + c.y2) := by unfold rad; ring
    rw [hs, if_neg (by rw [habs]; intro h; exact absurd h.2 (not_lt.mpr hy))]
    have ha : ∀ l p q, solveAstroid root R 0 l p q = .error .zeroDivision := by
      intro l p q
      unfold solveAstroid pyDiv
      dsimp only
      rw [if_pos (by ring)]
      rfl
    rw [ha]
    rfl
  unfold ellipsoidalInverse
  rw [if_neg (by rintro ⟨h, h'⟩; exact hne.elim (fun w => w (h.trans h')) (fun w => w h'))]
  dsimp only
  rw [htr]
  rfl

/-- From (0, 45) on a sphere of radius 1 to (90, 45): the hypotheses are met, and the distance is that of the chord of 60 degrees. -/
example (root : ℝ → ℝ → (ℝ → ℝ) → ℝ → Except Err ℝ) : ∃ az baz, ellipsoidalInverse root 1 1 0 45 90 45 (1 / 10 ^ 12) = .ok (az, baz, Real.pi / 3) := by
  have hpi := Real.pi_pos
  have hpi3 := Real.two_le_pi
  have hr : reduceDeg (90 - 0) = 90 := by
    unfold reduceDeg
    rw [pyModR_self (by norm_num) (by norm_num)]; norm_num
  have r90 : rad 90 = Real.pi / 2 := by unfold rad; ring
  obtain ⟨az, baz, s, e, -, -, -, -, -, -, h⟩ := C97_sphere_partial root 1 0 45 90 45 (1 / 10 ^ 12) one_pos (by norm_num) (by norm_num)
    (by norm_num) (by norm_num) (by norm_num) (Or.inl (by norm_num))
    (by
      right; right
      rw [hr, abs_of_pos (show (0 : ℝ) < 90 by norm_num), r90, show (45 : ℝ) + 45 = 90 by norm_num, r90,
        show Real.pi / 2 - Real.pi = -(Real.pi / 2) by ring, abs_neg, abs_of_pos (by linarith)]
      constructor <;> linarith)
  refine ⟨az, baz, ?_⟩
  rw [e, h, one_mul, centralAngle_eq]
  have r45 : rad 45 = Real.pi / 4 := by unfold rad; ring
  have r0 : rad 0 = 0 := by unfold rad; ring
  rw [r45, r0, r90, zero_sub, Real.cos_neg, Real.cos_pi_div_two, mul_zero, add_zero, Real.sin_pi_div_four]
  have : Real.sqrt 2 / 2 * (Real.sqrt 2 / 2) = Real.cos (Real.pi / 3) := by
    rw [Real.cos_pi_div_three]
    have := Real.mul_self_sqrt (show (0 : ℝ) ≤ 2 by norm_num)
    linarith
  rw [this, Real.arccos_cos (by positivity) (by linarith)]

/-- Between (0, 10) and (90, -10) on the unit sphere the inverse problem fails. -/
example (root : ℝ → ℝ → (ℝ → ℝ) → ℝ → Except Err ℝ) :
    ellipsoidalInverse root 1 1 0 10 90 (-10) (1 / 10 ^ 12) = .error .zeroDivision := by
  have hpi3 := Real.two_le_pi
  have hr : reduceDeg (90 - 0) = 90 := by
    unfold reduceDeg
    rw [pyModR_self (by norm_num) (by norm_num)]; norm_num
  have r90 : rad 90 = Real.pi / 2 := by unfold rad; ring
  apply C97_violated_cancelling
  · left; norm_num
  · rw [hr]; norm_num
  · rw [hr, abs_of_pos (show (0 : ℝ) < 90 by norm_num), r90,
        show Real.pi / 2 - Real.pi = -(Real.pi / 2) by ring, abs_neg, abs_of_pos (by linarith)]
    norm_num
    linarith
  · rw [show rad (10 + -10) = 0 by unfold rad; ring]; norm_num

end Karta.Geod.Geodesic
