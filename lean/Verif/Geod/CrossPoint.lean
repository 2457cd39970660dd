import Verif.Geod.CrossSphProps

/-!
# C137, continued: the computed crossing, segments along meridians, and the cases in which the tests fail
-/

namespace Karta.Geod.Cross
open Karta Karta.Geod Karta.Geod.Sphere
open Karta.Vec (Pt)
open Karta.Vec.Sweep (CSeg Ev)

theorem norm_of_r {v : V3} : v.norm ^ 2 = v.r ^ 2 + v.z ^ 2 := norm_sq v

/-- The latitude computed by `cart2sph`, once reduced, is that of the direction. -/
theorem lat_of {v : V3} (hr : 0 < v.r) {L : ℝ} (hL : L = (1 / 2 * Real.pi - thetaOf (1 / 10 ^ 8) v) * 180 / Real.pi) :
    Real.cos (Real.pi * reduceLat L / 180) = v.r / v.norm ∧ Real.sin (Real.pi * reduceLat L / 180) = v.z / v.norm ∧
    -90 < reduceLat L ∧ reduceLat L < 90 := by
  have hpi := Real.pi_pos
  have hn := norm_pos_of_r hr
  have hrn : 0 < v.r / v.norm := by positivity
  have eL : Real.pi * L / 180 = Real.pi / 2 - thetaOf (1 / 10 ^ 8) v := by rw [hL]; field_simp
  by_cases hz : -(1 / 10 ^ 8) ≤ v.z
  · obtain ⟨h1, h2, h3, h4⟩ := theta_north (eps := 1 / 10 ^ 8) (by norm_num) hr hz
    have h3' : 0 < thetaOf (1 / 10 ^ 8) v := by
      rcases h3.eq_or_lt with h | h
      · rw [← h, Real.sin_zero] at h1; linarith
      · exact h
    have h4' : thetaOf (1 / 10 ^ 8) v < Real.pi := by
      rcases h4.eq_or_lt with h | h
      · rw [h, Real.sin_pi] at h1; linarith
      · exact h
    have b1 : -90 < L := by rw [hL, lt_div_iff₀ hpi]; nlinarith
    have b2 : L < 90 := by rw [hL, div_lt_iff₀ hpi]; nlinarith
    have e : reduceLat L = L := by
      unfold reduceLat
      rw [pyModR_self (by linarith) (by linarith)]; ring
    rw [e, eL, Real.cos_pi_div_two_sub, Real.sin_pi_div_two_sub, h1, h2]
    exact ⟨rfl, rfl, b1, b2⟩
  · push Not at hz
    obtain ⟨h1, h2, h3⟩ := theta_south (eps := 1 / 10 ^ 8) (by norm_num) hr hz
    have h4 : -(Real.pi / 2) < thetaOf (1 / 10 ^ 8) v := by
      unfold thetaOf
      rw [if_pos (lt_abs.mpr (Or.inr (by linarith)))]
      exact Real.neg_pi_div_two_lt_arctan _
    have b1 : 90 < L := by rw [hL, lt_div_iff₀ hpi]; nlinarith
    have b2 : L < 180 := by rw [hL, div_lt_iff₀ hpi]; nlinarith
    have e : reduceLat L = L - 180 := by
      unfold reduceLat
      rw [show L + 90 = (L - 90) + 180 * ((1 : ℤ) : ℝ) by push_cast; ring, pyModR_add _ (by norm_num),
        pyModR_self (by linarith) (by linarith)]
      ring
    rw [e, show Real.pi * (L - 180) / 180 = Real.pi * L / 180 - Real.pi by ring, eL, Real.cos_sub_pi, Real.sin_sub_pi,
      Real.cos_pi_div_two_sub, Real.sin_pi_div_two_sub, h1, h2]
    exact ⟨by ring, by ring, by linarith, by linarith⟩

theorem hasLon_reduce {v : V3} {lon : ℝ} (h : HasLon v lon) : HasLon v (Sphere.reduceDeg lon) ∧ -180 ≤ Sphere.reduceDeg lon ∧
    Sphere.reduceDeg lon < 180 := by
  obtain ⟨ρ, hρ, hx, hy⟩ := h
  have hm := pyModR_mem (lon + 180) (m := 360) (by norm_num)
  obtain ⟨k, hk⟩ := pyModR_cong (lon + 180) (360 : ℝ)
  have e : Real.pi * Sphere.reduceDeg lon / 180 = Real.pi * lon / 180 + k * (2 * Real.pi) := by
    unfold Sphere.reduceDeg; rw [hk]; ring
  refine ⟨⟨ρ, hρ, ?_, ?_⟩, by unfold Sphere.reduceDeg; linarith [hm.1], by unfold Sphere.reduceDeg; linarith [hm.2]⟩
  · rw [e, Real.cos_add_int_mul_two_pi]; exact hx
  · rw [e, Real.sin_add_int_mul_two_pi]; exact hy

theorem r_of_hasLon {v : V3} {lon : ℝ} (h : HasLon v lon) : v.x = v.r * Real.cos (Real.pi * lon / 180) ∧
    v.y = v.r * Real.sin (Real.pi * lon / 180) := by
  obtain ⟨ρ, hρ, hx, hy⟩ := h
  have : v.r = ρ := by
    unfold V3.r
    rw [hx, hy, mul_pow, mul_pow, ← mul_add, Real.cos_sq_add_sin_sq, mul_one, Real.sqrt_sq hρ.le]
  rw [this]; exact ⟨hx, hy⟩

theorem r_pos_of_hasLon {v : V3} {lon : ℝ} (h : HasLon v lon) : 0 < v.r := by
  obtain ⟨ρ, hρ, hx, hy⟩ := h
  apply Real.sqrt_pos.mpr
  rw [hx, hy, mul_pow, mul_pow, ← mul_add, Real.cos_sq_add_sin_sq, mul_one]
  positivity

/-- The direction with this longitude and latitude is the given one. -/
theorem direction {v : V3} {lon lat : ℝ} (h : HasLon v lon) (h1 : Real.cos (Real.pi * lat / 180) = v.r / v.norm)
    (h2 : Real.sin (Real.pi * lat / 180) = v.z / v.norm) :
    v.x = v.norm * (sph2cart lon lat).x ∧ v.y = v.norm * (sph2cart lon lat).y ∧ v.z = v.norm * (sph2cart lon lat).z := by
  obtain ⟨hx, hy⟩ := r_of_hasLon h
  have hn := norm_pos_of_r (r_pos_of_hasLon h)
  rw [sph2cart_eq]
  dsimp only
  rw [h1, h2]
  refine ⟨?_, ?_, ?_⟩
  · rw [show v.norm * (v.r / v.norm * Real.cos (Real.pi * lon / 180)) = v.r * Real.cos (Real.pi * lon / 180) by field_simp]
    exact hx
  · rw [show v.norm * (v.r / v.norm * Real.sin (Real.pi * lon / 180)) = v.r * Real.sin (Real.pi * lon / 180) by field_simp]
    exact hy
  · field_simp

theorem norm_opp (v : V3) : (V3.opp v).norm = v.norm ∧ (V3.opp v).r = v.r := by
  constructor
  · unfold V3.norm V3.opp; simp
  · unfold V3.r V3.opp; simp

/-- The longitude and the latitude of a direction off the axis, as computed. -/
theorem lonlat_of {v : V3} (hr : 0 < v.r) (hx : NotFar v) : ∃ lon lat, toLonLat v = some (lon, lat) ∧
    HasLon v (Sphere.reduceDeg lon) ∧ -180 ≤ Sphere.reduceDeg lon ∧ Sphere.reduceDeg lon < 180 ∧
    Real.cos (Real.pi * reduceLat lat / 180) = v.r / v.norm ∧ Real.sin (Real.pi * reduceLat lat / 180) = v.z / v.norm ∧
    -90 < reduceLat lat ∧ reduceLat lat < 90 := by
  obtain ⟨lon, lat, e, hl, l1, l2⟩ := lon_of hr hx
  have e' := e
  unfold toLonLat at e'
  rw [cart2sph_ok hr] at e'
  dsimp only at e'
  injection e' with e'
  injection e' with e1 e2
  obtain ⟨h1, h2, h3⟩ := hasLon_reduce hl
  obtain ⟨k1, k2, k3, k4⟩ := lat_of hr e2.symm
  exact ⟨lon, lat, e, h1, h2, h3, k1, k2, k3, k4⟩

theorem opp_lat {v : V3} {lat : ℝ} (h1 : Real.cos (Real.pi * lat / 180) = v.r / v.norm)
    (h2 : Real.sin (Real.pi * lat / 180) = v.z / v.norm) :
    Real.cos (Real.pi * -lat / 180) = (V3.opp v).r / (V3.opp v).norm ∧ Real.sin (Real.pi * -lat / 180) = (V3.opp v).z / (V3.opp v).norm := by
  rw [(norm_opp v).1, (norm_opp v).2, show Real.pi * -lat / 180 = -(Real.pi * lat / 180) by ring, Real.cos_neg, Real.sin_neg, h1, h2]
  refine ⟨rfl, ?_⟩
  show -(v.z / v.norm) = -v.z / v.norm
  ring

theorem onArc_direction {s : Vec.Seg} {v : V3} {lon lat : ℝ} (h : HasLon v lon) (h1 : Real.cos (Real.pi * lat / 180) = v.r / v.norm)
    (h2 : Real.sin (Real.pi * lat / 180) = v.z / v.norm) (hv : OnArc s v) : OnArc s (sph2cart lon lat) := by
  obtain ⟨a, b, c⟩ := direction h h1 h2
  exact onArc_scale (norm_pos_of_r (r_pos_of_hasLon h)) hv a b c

/-- **C137 (part).**  Under the same conditions as the test of pairs, `intersection_sph` returns a point exactly when the two
arcs have one in common, and the point, with a longitude from -180 to 180 and a latitude between -90 and 90, is then on both.
Missing: as for the test of pairs. -/
theorem C137_point_partial {s r : Vec.Seg} (hs : Proper s) (hr : Proper r) (hd : Different s r) (hx : NotFar (nodeOf s r)) :
    (intersectionSph s r = none ↔ ¬ ArcsMeet s r) ∧
    ∀ lon lat, intersectionSph s r = some (lon, lat) → -180 ≤ lon ∧ lon < 180 ∧ -90 < lat ∧ lat < 90 ∧
      OnArc s (sph2cart lon lat) ∧ OnArc r (sph2cart lon lat) := by
  obtain ⟨p1, p2⟩ := node_perp s r
  have hrp := r_pos_of_perp (normal_z hs) p1 hd
  obtain ⟨lon, lat, e, hl, l1, l2, k1, k2, k3, k4⟩ := lonlat_of hrp hx
  obtain ⟨ha, a1, a2⟩ := anti_lon hl
  have a3 : antiLon (Sphere.reduceDeg lon) < 180 := by
    have := (pyModR_mem (Sphere.reduceDeg lon + 360) (m := 360) (by norm_num)).2
    unfold antiLon; linarith
  obtain ⟨k1', k2'⟩ := opp_lat k1 k2
  have i1 := arc_iff hs hl l1 l2.le p1
  have i2 := arc_iff hr hl l1 l2.le p2
  have i3 := arc_iff hs ha a1 a2 (opp_perp p1)
  have i4 := arc_iff hr ha a1 a2 (opp_perp p2)
  rw [meet_iff_node hd, ← i1, ← i2, ← i3, ← i4]
  unfold intersectionSph
  rw [show cross3 (pole s) (pole r) = nodeOf s r from rfl, e]
  dsimp only
  by_cases c1 : betweenInc s.a.x (Sphere.reduceDeg lon) s.b.x ∧ betweenInc r.a.x (Sphere.reduceDeg lon) r.b.x
  · rw [if_pos c1]
    refine ⟨by simp [c1], ?_⟩
    intro x y h
    injection h with h
    injection h with h3 h4
    subst h3; subst h4
    exact ⟨l1, l2, k3, k4, onArc_direction hl k1 k2 (i1.1 c1.1), onArc_direction hl k1 k2 (i2.1 c1.2)⟩
  · rw [if_neg c1]
    by_cases c2 : betweenInc s.a.x (antiLon (Sphere.reduceDeg lon)) s.b.x ∧ betweenInc r.a.x (antiLon (Sphere.reduceDeg lon)) r.b.x
    · rw [if_pos c2]
      refine ⟨by simp [c2], ?_⟩
      intro x y h
      injection h with h
      injection h with h3 h4
      subst h3; subst h4
      exact ⟨a1, a3, by linarith, by linarith, onArc_direction ha k1' k2' (i3.1 c2.1), onArc_direction ha k1' k2' (i4.1 c2.2)⟩
    · rw [if_neg c2]
      refine ⟨?_, by intro x y h; cases h⟩
      simp only [true_iff, not_or]
      exact ⟨c1, c2⟩

/-! ### Meridians -/

/-- The direction in which the great circle of a segment crosses a meridian, as computed. -/
noncomputable def meridianNode (s : Vec.Seg) (x : ℚ) : V3 :=
  cross3 (pole s) ⟨Real.sin (Real.pi * x / 180), Real.cos (Real.pi * x / 180), 0⟩

theorem meridianNode_eq (s : Vec.Seg) (x : ℚ) : meridianNode s x =
    ⟨-((normal s).z * Real.cos (Real.pi * x / 180)), -((normal s).z * Real.sin (Real.pi * x / 180)),
      (normal s).x * Real.cos (Real.pi * x / 180) + (normal s).y * Real.sin (Real.pi * x / 180)⟩ := by
  unfold meridianNode cross3
  rw [pole_eq]
  dsimp only
  congr 1 <;> ring

theorem meridianNode_perp (s : Vec.Seg) (x : ℚ) : (meridianNode s x).dot (normal s) = 0 := by
  rw [meridianNode_eq]
  simp only [V3.dot]
  ring

/-- Two longitudes of the same direction differ by whole turns. -/
theorem lon_unique {v : V3} {l m : ℝ} (h1 : HasLon v l) (h2 : HasLon v m) (hl : -180 ≤ l) (hl' : l < 180) (hm : -180 ≤ m)
    (hm' : m < 180) : l = m := by
  have hr := r_pos_of_hasLon h1
  obtain ⟨a1, a2⟩ := r_of_hasLon h1
  obtain ⟨b1, b2⟩ := r_of_hasLon h2
  have hpi := Real.pi_pos
  have e1 : Real.cos (Real.pi * l / 180) = Real.cos (Real.pi * m / 180) := mul_left_cancel₀ hr.ne' (a1.symm.trans b1)
  have e2 : Real.sin (Real.pi * l / 180) = Real.sin (Real.pi * m / 180) := mul_left_cancel₀ hr.ne' (a2.symm.trans b2)
  have e3 : Real.cos (Real.pi * l / 180 - Real.pi * m / 180) = 1 := by
    rw [Real.cos_sub, e1, e2]; nlinarith [Real.sin_sq_add_cos_sq (Real.pi * m / 180)]
  have := (Real.cos_eq_one_iff_of_lt_of_lt (by nlinarith) (by nlinarith)).1 e3
  have h : Real.pi * (l - m) = 0 := by linarith
  rcases mul_eq_zero.1 h with h | h
  · exact absurd h hpi.ne'
  · linarith

/-- A segment of the sphere crosses every meridian between its ends. -/
theorem meridian_lat {s : Vec.Seg} (hs : Proper s) {x : ℚ} (h1 : min s.a.x s.b.x ≤ x) (h2 : x ≤ max s.a.x s.b.x)
    (hf : NotFar (meridianNode s x)) :
    ∃ y, meridianLat s x = some y ∧ -90 < y ∧ y < 90 ∧ OnArc s (sph2cart x y) := by
  have hz := normal_z hs
  have hx1 : -180 < x := lt_of_lt_of_le (lt_min hs.ax.1 hs.bx.1) h1
  have hx2 : x < 180 := lt_of_le_of_lt h2 (max_lt hs.ax.2 hs.bx.2)
  have hx1' : (-180 : ℝ) < x := by exact_mod_cast hx1
  have hx2' : (x : ℝ) < 180 := by exact_mod_cast hx2
  have hin : betweenInc s.a.x x s.b.x := by
    constructor
    · exact_mod_cast h1
    · exact_mod_cast h2
  have hcase : HasLon (meridianNode s x) x ∨ HasLon (V3.opp (meridianNode s x)) x := by
    rw [meridianNode_eq]
    rcases lt_or_gt_of_ne hz with h | h
    · left; exact ⟨-(normal s).z, by linarith, by dsimp only; ring, by dsimp only; ring⟩
    · right; exact ⟨(normal s).z, h, by simp [V3.opp], by simp [V3.opp]⟩
  have hp := meridianNode_perp s x
  have hrp : 0 < (meridianNode s x).r := by
    rcases hcase with h | h
    · exact r_pos_of_hasLon h
    · rw [← (norm_opp _).2]; exact r_pos_of_hasLon h
  obtain ⟨lon, lat, e, hl, l1, l2, k1, k2, k3, k4⟩ := lonlat_of hrp hf
  obtain ⟨ha, a1, a2⟩ := anti_lon hl
  have a3 : antiLon (Sphere.reduceDeg lon) < 180 := by
    have := (pyModR_mem (Sphere.reduceDeg lon + 360) (m := 360) (by norm_num)).2
    unfold antiLon; linarith
  obtain ⟨k1', k2'⟩ := opp_lat k1 k2
  unfold meridianLat
  rw [show cross3 (pole s) ⟨Real.sin (Real.pi * x / 180), Real.cos (Real.pi * x / 180), 0⟩ = meridianNode s x from rfl, e]
  dsimp only
  rcases hcase with h | h
  · have e1 : Sphere.reduceDeg lon = x := lon_unique hl h l1 l2 hx1'.le hx2'
    rw [e1, if_pos hin]
    rw [e1] at hl
    exact ⟨_, rfl, k3, k4, onArc_direction hl k1 k2 ((arc_iff hs hl hx1'.le hx2'.le hp).1 hin)⟩
  · have e1 : antiLon (Sphere.reduceDeg lon) = x := lon_unique ha h a1 a3 hx1'.le hx2'
    have hn : ¬ betweenInc s.a.x (Sphere.reduceDeg lon) s.b.x := by
      intro hb
      have g1 := (arc_iff hs hl l1 l2.le hp).1 hb
      have g2 := (arc_iff hs h hx1'.le hx2'.le (opp_perp hp)).1 hin
      obtain ⟨c, d, hc, hd, w1, w2, w3⟩ := g1
      obtain ⟨c', d', hc', hd', v1, v2, v3⟩ := g2
      have q1 := (coeff_of w1 w2).1
      have q2 := (coeff_of w1 w2).2
      have q3 := (coeff_of v1 v2).1
      have q4 := (coeff_of v1 v2).2
      have hk : (vec s.a).x * (vec s.b).y - (vec s.a).y * (vec s.b).x ≠ 0 := hz
      have s1 : (c + c') * ((vec s.a).x * (vec s.b).y - (vec s.a).y * (vec s.b).x) = 0 := by
        rw [add_mul, q1, q3]; simp only [V3.opp]; ring
      have s2 : (d + d') * ((vec s.a).x * (vec s.b).y - (vec s.a).y * (vec s.b).x) = 0 := by
        rw [add_mul, q2, q4]; simp only [V3.opp]; ring
      have t1 := (mul_eq_zero.1 s1).resolve_right hk
      have t2 := (mul_eq_zero.1 s2).resolve_right hk
      have u1 : c = 0 := by linarith
      have u2 : d = 0 := by linarith
      obtain ⟨ρ, hρ, hx, hy⟩ := h
      simp only [V3.opp] at hx hy
      rw [w1, u1, u2] at hx
      rw [w2, u1, u2] at hy
      have := Real.cos_sq_add_sin_sq (Real.pi * x / 180)
      have z1 : Real.cos (Real.pi * x / 180) = 0 := by
        have : ρ * Real.cos (Real.pi * x / 180) = 0 := by linarith
        exact (mul_eq_zero.1 this).resolve_left hρ.ne'
      have z2 : Real.sin (Real.pi * x / 180) = 0 := by
        have : ρ * Real.sin (Real.pi * x / 180) = 0 := by linarith
        exact (mul_eq_zero.1 this).resolve_left hρ.ne'
      rw [z1, z2] at this
      norm_num at this
    rw [if_neg hn, e1, if_pos hin]
    rw [e1] at ha
    exact ⟨_, rfl, by linarith, by linarith, onArc_direction ha k1' k2' ((arc_iff hs ha hx1'.le hx2'.le (opp_perp hp)).1 hin)⟩

/-- A segment along a meridian, away from the poles and from the meridian 180. -/
structure Meridional (v : Vec.Seg) : Prop where
  same : v.a.x = v.b.x
  lon : -180 < v.a.x ∧ v.a.x < 180
  ay : -90 < v.a.y ∧ v.a.y < 90
  by_ : -90 < v.b.y ∧ v.b.y < 90

theorem sin_zero_deg {d : ℝ} (h1 : -180 < d) (h2 : d < 180) (h : Real.sin (Real.pi * d / 180) = 0) : d = 0 := by
  rcases lt_trichotomy d 0 with hd | hd | hd
  · exact absurd h (sin_neg_deg h1 hd).ne
  · exact hd
  · exact absurd h (sin_pos_deg hd h2).ne'

/-- The points of a segment along a meridian are those with a latitude between its ends. -/
theorem onMeridian_iff {v : Vec.Seg} (hv : Meridional v) {y : ℝ} (h1 : -90 < y) (h2 : y < 90) :
    OnArc v (sph2cart v.a.x y) ↔ betweenInc v.a.y y v.b.y := by
  have ha1 : (-90 : ℝ) < v.a.y := by exact_mod_cast hv.ay.1
  have ha2 : (v.a.y : ℝ) < 90 := by exact_mod_cast hv.ay.2
  have hb1 : (-90 : ℝ) < v.b.y := by exact_mod_cast hv.by_.1
  have hb2 : (v.b.y : ℝ) < 90 := by exact_mod_cast hv.by_.2
  have hxx : (v.b.x : ℝ) = v.a.x := by exact_mod_cast hv.same.symm
  have hcs := Real.cos_sq_add_sin_sq (Real.pi * v.a.x / 180)
  have red : ∀ c d : ℝ, ((sph2cart v.a.x y).x = c * (vec v.a).x + d * (vec v.b).x ∧ (sph2cart v.a.x y).y = c * (vec v.a).y + d * (vec v.b).y ∧
      (sph2cart v.a.x y).z = c * (vec v.a).z + d * (vec v.b).z) ↔
      (Real.cos (Real.pi * y / 180) = c * Real.cos (Real.pi * v.a.y / 180) + d * Real.cos (Real.pi * v.b.y / 180) ∧
        Real.sin (Real.pi * y / 180) = c * Real.sin (Real.pi * v.a.y / 180) + d * Real.sin (Real.pi * v.b.y / 180)) := by
    intro c d
    rw [sph2cart_eq, vec_eq, vec_eq, hxx]
    dsimp only
    constructor
    · rintro ⟨e1, e2, e3⟩
      refine ⟨?_, e3⟩
      linear_combination Real.cos (Real.pi * v.a.x / 180) * e1 + Real.sin (Real.pi * v.a.x / 180) * e2 -
        (Real.cos (Real.pi * y / 180) - c * Real.cos (Real.pi * v.a.y / 180) - d * Real.cos (Real.pi * v.b.y / 180)) * hcs
    · rintro ⟨e1, e2⟩
      rw [e1, e2]
      exact ⟨by ring, by ring, rfl⟩
  have sub : ∀ a b : ℝ, Real.sin (Real.pi * (a - b) / 180) = Real.sin (Real.pi * a / 180) * Real.cos (Real.pi * b / 180) -
      Real.cos (Real.pi * a / 180) * Real.sin (Real.pi * b / 180) := by
    intro a b
    rw [show Real.pi * (a - b) / 180 = Real.pi * a / 180 - Real.pi * b / 180 by ring, Real.sin_sub]
  have main : ∀ p q : ℝ, -90 < p → p < 90 → -90 < q → q < 90 → p ≤ q →
      ((∃ c d : ℝ, 0 ≤ c ∧ 0 ≤ d ∧ Real.cos (Real.pi * y / 180) = c * Real.cos (Real.pi * p / 180) + d * Real.cos (Real.pi * q / 180) ∧
        Real.sin (Real.pi * y / 180) = c * Real.sin (Real.pi * p / 180) + d * Real.sin (Real.pi * q / 180)) ↔ (p ≤ y ∧ y ≤ q)) := by
    intro p q hp1 hp2 hq1 hq2 hpq
    constructor
    · rintro ⟨c, d, hc, hd, e1, e2⟩
      have f1 : Real.sin (Real.pi * (y - p) / 180) = d * Real.sin (Real.pi * (q - p) / 180) := by
        rw [sub, sub, e1, e2]; ring
      have f2 : Real.sin (Real.pi * (q - y) / 180) = c * Real.sin (Real.pi * (q - p) / 180) := by
        rw [sub, sub, e1, e2]; ring
      have f3 : 0 ≤ Real.sin (Real.pi * (q - p) / 180) := sin_nonneg_deg (by linarith) (by linarith)
      constructor
      · by_contra hn
        push Not at hn
        have := sin_neg_deg (d := y - p) (by linarith) (by linarith)
        rw [f1] at this
        exact absurd this (not_lt.2 (mul_nonneg hd f3))
      · by_contra hn
        push Not at hn
        have := sin_neg_deg (d := q - y) (by linarith) (by linarith)
        rw [f2] at this
        exact absurd this (not_lt.2 (mul_nonneg hc f3))
    · rintro ⟨g1, g2⟩
      rcases hpq.eq_or_lt with h | h
      · have : y = p := by linarith
        exact ⟨1, 0, by norm_num, by norm_num, by rw [this]; ring, by rw [this]; ring⟩
      · have hk : 0 < Real.sin (Real.pi * (q - p) / 180) := sin_pos_deg (by linarith) (by linarith)
        have n1 : 0 ≤ Real.sin (Real.pi * (q - y) / 180) := sin_nonneg_deg (by linarith) (by linarith)
        have n2 : 0 ≤ Real.sin (Real.pi * (y - p) / 180) := sin_nonneg_deg (by linarith) (by linarith)
        refine ⟨Real.sin (Real.pi * (q - y) / 180) / Real.sin (Real.pi * (q - p) / 180),
          Real.sin (Real.pi * (y - p) / 180) / Real.sin (Real.pi * (q - p) / 180), by positivity, by positivity, ?_, ?_⟩
        · field_simp
          rw [sub, sub, sub]; ring
        · field_simp
          rw [sub, sub, sub]; ring
  unfold OnArc betweenInc
  simp only [red]
  rcases le_total (v.a.y : ℝ) v.b.y with h | h
  · rw [min_eq_left h, max_eq_right h]
    exact main _ _ ha1 ha2 hb1 hb2 h
  · rw [min_eq_right h, max_eq_left h, ← main _ _ hb1 hb2 ha1 ha2 h]
    constructor
    · rintro ⟨c, d, hc, hd, e1, e2⟩; exact ⟨d, c, hd, hc, by rw [e1]; ring, by rw [e2]; ring⟩
    · rintro ⟨c, d, hc, hd, e1, e2⟩; exact ⟨d, c, hd, hc, by rw [e1]; ring, by rw [e2]; ring⟩

theorem meridional_lon {v : Vec.Seg} (hv : Meridional v) {w : V3} (hw : OnArc v w) (h0 : ¬ (w.x = 0 ∧ w.y = 0 ∧ w.z = 0)) :
    HasLon w v.a.x := by
  obtain ⟨c, d, hc, hd, hx, hy, hz⟩ := hw
  have ca := cos_lat_pos hv.ay
  have cb := cos_lat_pos hv.by_
  have hxx : (v.b.x : ℝ) = v.a.x := by exact_mod_cast hv.same.symm
  refine ⟨c * Real.cos (Real.pi * v.a.y / 180) + d * Real.cos (Real.pi * v.b.y / 180), ?_, ?_, ?_⟩
  · by_contra hn
    have g1 := mul_nonneg hc ca.le
    have g2 := mul_nonneg hd cb.le
    have z1 : c = 0 := (mul_eq_zero.1 (by linarith : c * Real.cos (Real.pi * v.a.y / 180) = 0)).resolve_right ca.ne'
    have z2 : d = 0 := (mul_eq_zero.1 (by linarith : d * Real.cos (Real.pi * v.b.y / 180) = 0)).resolve_right cb.ne'
    apply h0
    rw [hx, hy, hz, z1, z2]
    simp
  · rw [hx, vec_eq, vec_eq, hxx]; dsimp only; ring
  · rw [hy, vec_eq, vec_eq, hxx]; dsimp only; ring

/-- Directions off the axis with the same longitude on the great circle of a segment are multiples of each other. -/
theorem same_lon_multiple {s : Vec.Seg} (hz : (normal s).z ≠ 0) {w u : V3} {l : ℝ} (h1 : HasLon w l) (h2 : HasLon u l)
    (p1 : w.dot (normal s) = 0) (p2 : u.dot (normal s) = 0) : ∃ k : ℝ, 0 < k ∧ w.x = k * u.x ∧ w.y = k * u.y ∧ w.z = k * u.z := by
  obtain ⟨ρ, hρ, a1, a2⟩ := h1
  obtain ⟨σ, hσ, b1, b2⟩ := h2
  refine ⟨ρ / σ, by positivity, ?_, ?_, ?_⟩
  · rw [a1, b1]; field_simp
  · rw [a2, b2]; field_simp
  · simp only [V3.dot] at p1 p2
    rw [a1, a2] at p1
    rw [b1, b2] at p2
    apply mul_right_cancel₀ hz
    have e1 : w.z * (normal s).z = -(ρ * (Real.cos (Real.pi * l / 180) * (normal s).x + Real.sin (Real.pi * l / 180) * (normal s).y)) := by linarith
    have e2 : u.z * (normal s).z = -(σ * (Real.cos (Real.pi * l / 180) * (normal s).x + Real.sin (Real.pi * l / 180) * (normal s).y)) := by linarith
    rw [e1, show ρ / σ * u.z * (normal s).z = ρ / σ * (u.z * (normal s).z) by ring, e2]
    field_simp

/-- **C137 (part).**  The test of a segment along a meridian against a segment of the other geometry whose range of longitude
contains the meridian is true exactly when the two arcs have a point in common.
Missing: as for the test of pairs; two segments along the same meridian are never tested. -/
theorem C137_meridian_partial {v s : CSeg} (hc : v.color ≠ s.color) (hv : Meridional v.seg) (hs : Proper s.seg)
    (h1 : min s.seg.a.x s.seg.b.x ≤ v.seg.a.x) (h2 : v.seg.a.x ≤ max s.seg.a.x s.seg.b.x)
    (hf : NotFar (meridianNode s.seg v.seg.a.x)) : verticalHitSph v s = true ↔ ArcsMeet v.seg s.seg := by
  obtain ⟨y, e, y1, y2, hy⟩ := meridian_lat hs h1 h2 hf
  unfold verticalHitSph
  rw [if_neg hc, e]
  dsimp only
  rw [decide_eq_true_eq]
  have hb : (((v.seg.a.y : ℝ) ≤ y ∧ (v.seg.b.y : ℝ) ≥ y) ∨ ((v.seg.b.y : ℝ) ≤ y ∧ (v.seg.a.y : ℝ) ≥ y)) ↔
      betweenInc v.seg.a.y y v.seg.b.y := by
    unfold betweenInc
    rw [min_le_iff, le_max_iff]
    constructor
    · rintro (⟨a, b⟩ | ⟨a, b⟩)
      · exact ⟨Or.inl a, Or.inr b⟩
      · exact ⟨Or.inr a, Or.inl b⟩
    · rintro ⟨a | a, b | b⟩
      · by_cases h : (v.seg.b.y : ℝ) ≤ y
        · exact Or.inr ⟨h, b⟩
        · exact Or.inl ⟨a, by push Not at h; exact h.le⟩
      · exact Or.inl ⟨a, b⟩
      · exact Or.inr ⟨a, b⟩
      · by_cases h : (v.seg.a.y : ℝ) ≤ y
        · exact Or.inl ⟨h, b⟩
        · exact Or.inr ⟨a, by push Not at h; exact h.le⟩
  have hcy : 0 < Real.cos (Real.pi * y / 180) := by
    have := Real.pi_pos
    exact Real.cos_pos_of_mem_Ioo ⟨by nlinarith, by nlinarith⟩
  have hlon : HasLon (sph2cart v.seg.a.x y) v.seg.a.x := by
    rw [sph2cart_eq]; exact ⟨_, hcy, rfl, rfl⟩
  rw [hb, ← onMeridian_iff hv y1 y2]
  constructor
  · intro h
    refine ⟨_, ?_, h, hy⟩
    rintro ⟨q1, q2, -⟩
    have := r_pos_of_hasLon hlon
    unfold V3.r at this
    rw [q1, q2] at this
    simp at this
  · rintro ⟨w, hw, m1, m2⟩
    have hl := meridional_lon hv m1 hw
    obtain ⟨k, hk, g1, g2, g3⟩ := same_lon_multiple (normal_z hs) hl hlon (onArc_perp m2) (onArc_perp hy)
    exact onArc_scale hk m1 g1 g2 g3

/-! ### Where the tests fail -/

theorem toLonLat_zero : toLonLat ⟨0, 0, 0⟩ = none := by
  unfold toLonLat cart2sph
  simp

/-- **C137 (violated).**  A segment is not found to have a point in common with itself: arcs on the same great circle are
never found to meet. -/
theorem C137_violated_same_circle (s : Vec.Seg) : pairHit s s = false ∧ ArcsMeet s s := by
  constructor
  · unfold pairHit
    have : cross3 (pole s) (pole s) = ⟨0, 0, 0⟩ := by unfold cross3; congr 1 <;> ring
    rw [this, toLonLat_zero]
  · refine ⟨vec s.a, ?_, ⟨1, 0, by norm_num, by norm_num, by ring, by ring, by ring⟩, ⟨1, 0, by norm_num, by norm_num, by ring, by ring, by ring⟩⟩
    rintro ⟨h1, h2, h3⟩
    rw [vec_eq] at h1 h2 h3
    dsimp only at h1 h2 h3
    have e1 := Real.cos_sq_add_sin_sq (Real.pi * s.a.x / 180)
    have e2 := Real.cos_sq_add_sin_sq (Real.pi * s.a.y / 180)
    have : Real.cos (Real.pi * s.a.y / 180) = 0 := by
      have h4 : Real.cos (Real.pi * s.a.y / 180) ^ 2 = 0 := by
        have : Real.cos (Real.pi * s.a.y / 180) ^ 2 * (Real.cos (Real.pi * s.a.x / 180) ^ 2 + Real.sin (Real.pi * s.a.x / 180) ^ 2) = 0 := by
          rw [mul_add, ← mul_pow, ← mul_pow, h1, h2]; norm_num
        rw [e1, mul_one] at this; exact this
      exact pow_eq_zero_iff (two_ne_zero) |>.1 h4
    rw [this, h3] at e2
    norm_num at e2

theorem far_x {k : ℝ} (hk : 0 < k) : ∃ lon lat, toLonLat ⟨-k, 0, 0⟩ = some (lon, lat) ∧ (lon = 180 ∨ lon = 0) := by
  have hr : 0 < (⟨-k, 0, 0⟩ : V3).r := by
    unfold V3.r; apply Real.sqrt_pos.mpr; dsimp only; nlinarith
  have hrk : (⟨-k, 0, 0⟩ : V3).r = k := by
    unfold V3.r; dsimp only
    rw [show (-k) ^ 2 + (0 : ℝ) ^ 2 = k ^ 2 by ring, Real.sqrt_sq hk.le]
  have hpi := Real.pi_pos
  refine ⟨_, _, by unfold toLonLat; rw [cart2sph_ok hr], ?_⟩
  by_cases h : 1 / 10 ^ 8 < |(-k : ℝ)|
  · left
    obtain ⟨l1, l2, l3, l4⟩ := lambda_ok (eps := 1 / 10 ^ 8) hr (Or.inl h)
    rw [hrk] at l1
    dsimp only at l1
    have hc : Real.cos (lambdaOf (1 / 10 ^ 8) ⟨-k, 0, 0⟩) = -1 := by
      apply mul_left_cancel₀ hk.ne'; linarith
    have e : lambdaOf (1 / 10 ^ 8) ⟨-k, 0, 0⟩ = Real.pi := by
      have h1 : Real.cos (lambdaOf (1 / 10 ^ 8) ⟨-k, 0, 0⟩ - Real.pi) = 1 := by rw [Real.cos_sub_pi, hc]; norm_num
      have := (Real.cos_eq_one_iff_of_lt_of_lt (by linarith) (by linarith)).1 h1
      linarith
    rw [e]
    field_simp
  · right
    have e : lambdaOf (1 / 10 ^ 8) ⟨-k, 0, 0⟩ = 0 := by
      unfold lambdaOf
      rw [if_neg h]
      simp
    rw [e]
    simp

/-- **C137 (violated).**  A segment across the meridian 180 is taken to go the other way around: it is found to cross every
segment through the point (0, 0) from the south-west to the north-east. -/
theorem C137_violated_dateline (α c d : ℚ) (h1 : 90 < α) (h2 : α < 180) (h3 : 0 < c) (h4 : c < 90) (h5 : 0 < d) (h6 : d < 90) :
    pairHit ⟨⟨α, 0⟩, ⟨-α, 0⟩⟩ ⟨⟨-d, -c⟩, ⟨d, c⟩⟩ = true ∧ ¬ ArcsMeet ⟨⟨α, 0⟩, ⟨-α, 0⟩⟩ ⟨⟨-d, -c⟩, ⟨d, c⟩⟩ := by
  have hpi := Real.pi_pos
  have r1 : (90 : ℝ) < α := by exact_mod_cast h1
  have r2 : (α : ℝ) < 180 := by exact_mod_cast h2
  have r3 : (0 : ℝ) < c := by exact_mod_cast h3
  have r4 : (c : ℝ) < 90 := by exact_mod_cast h4
  have r5 : (0 : ℝ) < d := by exact_mod_cast h5
  have r6 : (d : ℝ) < 90 := by exact_mod_cast h6
  have ca : Real.cos (Real.pi * α / 180) < 0 :=
    Real.cos_neg_of_pi_div_two_lt_of_lt (by nlinarith) (by nlinarith)
  have sa : 0 < Real.sin (Real.pi * α / 180) := sin_pos_deg (by linarith) r2
  have sc : 0 < Real.sin (Real.pi * c / 180) := sin_pos_deg r3 (by linarith)
  have cc : 0 < Real.cos (Real.pi * c / 180) := cos_lat_pos ⟨by linarith, h4⟩
  have cd : 0 < Real.cos (Real.pi * d / 180) := cos_lat_pos ⟨by linarith, h6⟩
  have neg : ∀ q : ℚ, Real.pi * ((-q : ℚ) : ℝ) / 180 = -(Real.pi * q / 180) := by intro q; push_cast; ring
  have zero : Real.pi * ((0 : ℚ) : ℝ) / 180 = 0 := by push_cast; ring
  have hnode : nodeOf ⟨⟨α, 0⟩, ⟨-α, 0⟩⟩ ⟨⟨-d, -c⟩, ⟨d, c⟩⟩ =
      ⟨-(4 * (-Real.cos (Real.pi * α / 180) * Real.sin (Real.pi * α / 180)) *
        (Real.sin (Real.pi * c / 180) * Real.cos (Real.pi * c / 180) * Real.cos (Real.pi * d / 180))), 0, 0⟩ := by
    unfold nodeOf pole
    rw [vec_eq, vec_eq, vec_eq, vec_eq]
    dsimp only
    rw [neg α, neg d, neg c, zero]
    simp only [Real.cos_neg, Real.sin_neg, Real.cos_zero, Real.sin_zero, cross3]
    congr 1 <;> ring
  constructor
  · have hk : 0 < 4 * (-Real.cos (Real.pi * α / 180) * Real.sin (Real.pi * α / 180)) *
        (Real.sin (Real.pi * c / 180) * Real.cos (Real.pi * c / 180) * Real.cos (Real.pi * d / 180)) := by
      have : 0 < -Real.cos (Real.pi * α / 180) := by linarith
      positivity
    obtain ⟨lon, lat, e, hl⟩ := far_x hk
    unfold pairHit
    rw [show cross3 (pole ⟨⟨α, 0⟩, ⟨-α, 0⟩⟩) (pole ⟨⟨-d, -c⟩, ⟨d, c⟩⟩) = nodeOf ⟨⟨α, 0⟩, ⟨-α, 0⟩⟩ ⟨⟨-d, -c⟩, ⟨d, c⟩⟩ from rfl, hnode, e]
    dsimp only
    have b0 : betweenInc ((α : ℚ) : ℝ) 0 ((-α : ℚ) : ℝ) ∧ betweenInc ((-d : ℚ) : ℝ) 0 ((d : ℚ) : ℝ) := by
      unfold betweenInc
      push_cast
      refine ⟨⟨min_le_iff.2 (Or.inr (by linarith)), le_max_iff.2 (Or.inl (by linarith))⟩,
        ⟨min_le_iff.2 (Or.inl (by linarith)), le_max_iff.2 (Or.inr (by linarith))⟩⟩
    rcases hl with h | h
    · have ea : antiLon lon = 0 := by
        unfold antiLon
        rw [h, show (180 : ℝ) + 360 = 180 + 360 * ((1 : ℤ) : ℝ) by norm_num, pyModR_add _ (by norm_num),
          pyModR_self (by norm_num) (by norm_num)]
        norm_num
      rw [ea, if_pos b0]
      split <;> rfl
    · rw [h, if_pos b0]
  · rintro ⟨w, h0, ⟨a, b, ha, hb, e1, e2, e3⟩, ⟨a', b', ha', hb', f1, f2, f3⟩⟩
    rw [vec_eq, vec_eq] at e1 e2 e3 f1 f2 f3
    dsimp only at e1 e2 e3 f1 f2 f3
    rw [neg α, zero] at e1 e2
    rw [zero] at e3
    rw [neg d, neg c] at f1
    simp only [Real.cos_neg, Real.sin_neg, Real.cos_zero, Real.sin_zero] at e1 e2 e3 f1
    have g1 : w.x = (a + b) * Real.cos (Real.pi * α / 180) := by rw [e1]; ring
    have g2 : w.x = (a' + b') * (Real.cos (Real.pi * c / 180) * Real.cos (Real.pi * d / 180)) := by rw [f1]; ring
    have hab : a + b = 0 := by
      by_contra hne
      have p : 0 < a + b := lt_of_le_of_ne (by linarith) (Ne.symm hne)
      have q1 := mul_neg_of_pos_of_neg p ca
      have q2 : 0 ≤ (a' + b') * (Real.cos (Real.pi * c / 180) * Real.cos (Real.pi * d / 180)) := by positivity
      linarith
    have za : a = 0 := by linarith
    have zb : b = 0 := by linarith
    apply h0
    rw [e1, e2, e3, za, zb]
    simp

/-! ### Cases that meet the conditions -/

theorem cos45 : Real.cos (Real.pi * ((45 : ℚ) : ℝ) / 180) = Real.sqrt 2 / 2 := by
  rw [← Real.cos_pi_div_four]; congr 1; push_cast; ring

theorem sin45 : Real.sin (Real.pi * ((45 : ℚ) : ℝ) / 180) = Real.sqrt 2 / 2 := by
  rw [← Real.sin_pi_div_four]; congr 1; push_cast; ring

/-- Two arcs that cross at (0, 0). -/
def exampleS : Vec.Seg := ⟨⟨-45, 0⟩, ⟨45, 0⟩⟩
def exampleR : Vec.Seg := ⟨⟨45, 45⟩, ⟨-45, -45⟩⟩

theorem example_node : nodeOf exampleS exampleR = ⟨Real.sqrt 2 / 2, 0, 0⟩ := by
  have neg : Real.pi * ((-45 : ℚ) : ℝ) / 180 = -(Real.pi * ((45 : ℚ) : ℝ) / 180) := by push_cast; ring
  have zero : Real.pi * ((0 : ℚ) : ℝ) / 180 = 0 := by push_cast; ring
  have h2 : Real.sqrt 2 ^ 2 = 2 := Real.sq_sqrt (by norm_num)
  unfold nodeOf pole exampleS exampleR
  rw [vec_eq, vec_eq, vec_eq, vec_eq]
  dsimp only
  rw [neg, zero]
  simp only [Real.cos_neg, Real.sin_neg, Real.cos_zero, Real.sin_zero, cos45, sin45, cross3]
  congr 1
  · have : Real.sqrt 2 ^ 4 = 4 := by rw [show Real.sqrt 2 ^ 4 = (Real.sqrt 2 ^ 2) ^ 2 by ring, h2]; norm_num
    linear_combination (Real.sqrt 2 / 8) * this
  · ring
  · ring

/-- The conditions are met, and the answer is yes. -/
example : Proper exampleS ∧ Proper exampleR ∧ Different exampleS exampleR ∧ NotFar (nodeOf exampleS exampleR) ∧
    pairHit exampleS exampleR = true := by
  have hp : 0 < Real.sqrt 2 / 2 := by positivity
  have h1 : Proper exampleS := by constructor <;> simp [exampleS] <;> norm_num [abs_lt]
  have h2 : Proper exampleR := by constructor <;> simp [exampleR] <;> norm_num [abs_lt]
  have h3 : Different exampleS exampleR := by
    unfold Different; rw [example_node]; rintro ⟨h, -⟩; exact hp.ne' h
  have h4 : NotFar (nodeOf exampleS exampleR) := by rw [example_node]; exact Or.inr hp.le
  refine ⟨h1, h2, h3, h4, (C137_pair_partial h1 h2 h3 h4).2 ((meet_iff_node h3).2 (Or.inl ?_))⟩
  rw [example_node]
  have e := Real.cos_sq_add_sin_sq (Real.pi / 4)
  have neg : Real.pi * ((-45 : ℚ) : ℝ) / 180 = -(Real.pi * ((45 : ℚ) : ℝ) / 180) := by push_cast; ring
  have zero : Real.pi * ((0 : ℚ) : ℝ) / 180 = 0 := by push_cast; ring
  have q2 : Real.sqrt 2 ^ 2 = 2 := Real.sq_sqrt (by norm_num)
  constructor
  · refine ⟨1 / 2, 1 / 2, by norm_num, by norm_num, ?_, ?_, ?_⟩ <;>
    · unfold exampleS
      rw [vec_eq, vec_eq]
      dsimp only
      try rw [neg]
      rw [zero]
      simp only [Real.cos_neg, Real.sin_neg, Real.cos_zero, Real.sin_zero, cos45, sin45]
      ring
  · refine ⟨Real.sqrt 2 / 2, Real.sqrt 2 / 2, hp.le, hp.le, ?_, ?_, ?_⟩
    · unfold exampleR
      rw [vec_eq, vec_eq]
      dsimp only
      rw [neg]
      simp only [Real.cos_neg, Real.sin_neg, cos45, sin45]
      linear_combination -(Real.sqrt 2 / 4) * q2
    · unfold exampleR
      rw [vec_eq, vec_eq]
      dsimp only
      rw [neg]
      simp only [Real.cos_neg, Real.sin_neg, cos45, sin45]
      ring
    · unfold exampleR
      rw [vec_eq, vec_eq]
      dsimp only
      rw [neg]
      simp only [Real.cos_neg, Real.sin_neg, cos45, sin45]
      ring

end Karta.Geod.Cross
