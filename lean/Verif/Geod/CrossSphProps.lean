import Verif.Geod.CrossSph
import Verif.Geod.SphereProps

/-!
# C137: crossing of two great-circle arcs
-/

namespace Karta.Geod.Cross
open Karta Karta.Geod Karta.Geod.Sphere
open Karta.Vec (Pt)
open Karta.Vec.Sweep (CSeg Ev)

/-! ## Specification -/

/-- The direction `w` points to the shorter great-circle arc between the ends of the segment: it is a combination of the
two ends with coefficients that are not negative. -/
def OnArc (s : Vec.Seg) (w : V3) : Prop :=
  ∃ c d : ℝ, 0 ≤ c ∧ 0 ≤ d ∧ w.x = c * (vec s.a).x + d * (vec s.b).x ∧ w.y = c * (vec s.a).y + d * (vec s.b).y ∧
    w.z = c * (vec s.a).z + d * (vec s.b).z

/-- The two arcs have a point in common. -/
def ArcsMeet (s r : Vec.Seg) : Prop := ∃ w : V3, ¬ (w.x = 0 ∧ w.y = 0 ∧ w.z = 0) ∧ OnArc s w ∧ OnArc r w

/-- A segment that neither follows a meridian nor crosses or touches the meridian 180, spans less than 180 degrees of
longitude and does not touch a pole. -/
structure Proper (s : Vec.Seg) : Prop where
  ax : -180 < s.a.x ∧ s.a.x < 180
  bx : -180 < s.b.x ∧ s.b.x < 180
  ay : -90 < s.a.y ∧ s.a.y < 90
  by_ : -90 < s.b.y ∧ s.b.y < 90
  ne : s.a.x ≠ s.b.x
  short : |s.a.x - s.b.x| < 180

/-- The direction in which the two great circles cross, as computed. -/
noncomputable def nodeOf (s r : Vec.Seg) : V3 := cross3 (pole s) (pole r)

/-- The great circles are different. -/
def Different (s r : Vec.Seg) : Prop := ¬ ((nodeOf s r).x = 0 ∧ (nodeOf s r).y = 0 ∧ (nodeOf s r).z = 0)

/-- The computed direction is not within a hair of longitude 90 or -90 on the far side. -/
def NotFar (v : V3) : Prop := 1 / 10 ^ 8 < |v.x| ∨ 0 ≤ v.x

/-! ## Proofs -/

/-- The opposite direction. -/
def V3.opp (v : V3) : V3 := ⟨-v.x, -v.y, -v.z⟩

/-- Normal of the plane of a segment. -/
noncomputable def normal (s : Vec.Seg) : V3 := cross (vec s.a) (vec s.b)

theorem pole_eq (s : Vec.Seg) : pole s = ⟨(normal s).x, -(normal s).y, (normal s).z⟩ := by
  unfold pole normal cross3 cross
  congr 1
  ring

theorem node_eq (s r : Vec.Seg) : nodeOf s r = V3.opp (cross (normal s) (normal r)) := by
  unfold nodeOf V3.opp
  rw [pole_eq, pole_eq]
  unfold cross3 cross
  congr 1 <;> ring

theorem node_perp (s r : Vec.Seg) : (nodeOf s r).dot (normal s) = 0 ∧ (nodeOf s r).dot (normal r) = 0 := by
  rw [node_eq]
  simp only [V3.opp, V3.dot, cross]
  constructor <;> ring

theorem opp_perp {v n : V3} (h : v.dot n = 0) : (V3.opp v).dot n = 0 := by
  simp only [V3.opp, V3.dot] at *; linarith

theorem vec_eq (p : Pt) : vec p = ⟨Real.cos (Real.pi * p.y / 180) * Real.cos (Real.pi * p.x / 180),
    Real.cos (Real.pi * p.y / 180) * Real.sin (Real.pi * p.x / 180), Real.sin (Real.pi * p.y / 180)⟩ := sph2cart_eq _ _

theorem cos_lat_pos {y : ℚ} (h : -90 < y ∧ y < 90) : 0 < Real.cos (Real.pi * y / 180) := by
  have h1 : (-90 : ℝ) < y := by exact_mod_cast h.1
  have h2 : (y : ℝ) < 90 := by exact_mod_cast h.2
  have := Real.pi_pos
  exact Real.cos_pos_of_mem_Ioo ⟨by nlinarith, by nlinarith⟩

theorem sin_pos_deg {d : ℝ} (h1 : 0 < d) (h2 : d < 180) : 0 < Real.sin (Real.pi * d / 180) := by
  have := Real.pi_pos
  exact Real.sin_pos_of_pos_of_lt_pi (by positivity) (by nlinarith)

theorem sin_nonneg_deg {d : ℝ} (h1 : 0 ≤ d) (h2 : d ≤ 180) : 0 ≤ Real.sin (Real.pi * d / 180) := by
  have := Real.pi_pos
  exact Real.sin_nonneg_of_nonneg_of_le_pi (by positivity) (by nlinarith)

theorem sin_neg_deg {d : ℝ} (h1 : -180 < d) (h2 : d < 0) : Real.sin (Real.pi * d / 180) < 0 := by
  have := sin_pos_deg (d := -d) (by linarith) (by linarith)
  rw [show Real.pi * -d / 180 = -(Real.pi * d / 180) by ring, Real.sin_neg] at this
  linarith

theorem sin_neg_deg' {d : ℝ} (h1 : 180 < d) (h2 : d < 360) : Real.sin (Real.pi * d / 180) < 0 := by
  have := sin_pos_deg (d := d - 180) (by linarith) (by linarith)
  rw [show Real.pi * (d - 180) / 180 = Real.pi * d / 180 - Real.pi by ring, Real.sin_sub_pi] at this
  linarith

/-- A longitude is between two others less than half a turn apart exactly when it is to the east of one and to the west of the
other. -/
theorem lon_between {a b l : ℝ} (h1 : -180 < a) (h2 : a < b) (h3 : b < 180) (h4 : b - a < 180) (h5 : -180 ≤ l) (h6 : l ≤ 180) :
    (a ≤ l ∧ l ≤ b) ↔ (0 ≤ Real.sin (Real.pi * (l - a) / 180) ∧ 0 ≤ Real.sin (Real.pi * (b - l) / 180)) := by
  constructor
  · rintro ⟨g1, g2⟩
    exact ⟨sin_nonneg_deg (by linarith) (by linarith), sin_nonneg_deg (by linarith) (by linarith)⟩
  · rintro ⟨g1, g2⟩
    constructor
    · by_contra hc
      push Not at hc
      by_cases hd : -180 < l - a
      · exact absurd g1 (not_le.mpr (sin_neg_deg hd (by linarith)))
      · push Not at hd
        exact absurd g2 (not_le.mpr (sin_neg_deg' (by linarith) (by linarith)))
    · by_contra hc
      push Not at hc
      by_cases hd : -180 < b - l
      · exact absurd g2 (not_le.mpr (sin_neg_deg hd (by linarith)))
      · push Not at hd
        exact absurd g1 (not_le.mpr (sin_neg_deg' (by linarith) (by linarith)))

/-- Solving for the coefficients of a vector in the plane of two others. -/
theorem arc_coeff {A B w : V3} (hk : A.x * B.y - A.y * B.x ≠ 0) (hp : w.dot (cross A B) = 0) {c d : ℝ}
    (hc : c * (A.x * B.y - A.y * B.x) = w.x * B.y - w.y * B.x) (hd : d * (A.x * B.y - A.y * B.x) = A.x * w.y - A.y * w.x) :
    w.x = c * A.x + d * B.x ∧ w.y = c * A.y + d * B.y ∧ w.z = c * A.z + d * B.z := by
  simp only [V3.dot, cross] at hp
  refine ⟨?_, ?_, ?_⟩
  · apply mul_left_cancel₀ hk
    linear_combination -A.x * hc - B.x * hd
  · apply mul_left_cancel₀ hk
    linear_combination -A.y * hc - B.y * hd
  · apply mul_left_cancel₀ hk
    linear_combination -A.z * hc - B.z * hd + hp

theorem coeff_of {A B w : V3} {c d : ℝ} (hx : w.x = c * A.x + d * B.x) (hy : w.y = c * A.y + d * B.y) :
    c * (A.x * B.y - A.y * B.x) = w.x * B.y - w.y * B.x ∧ d * (A.x * B.y - A.y * B.x) = A.x * w.y - A.y * w.x := by
  rw [hx, hy]; constructor <;> ring

theorem horiz (p q : Pt) : (vec p).x * (vec q).y - (vec p).y * (vec q).x =
    Real.cos (Real.pi * p.y / 180) * Real.cos (Real.pi * q.y / 180) * Real.sin (Real.pi * ((q.x : ℝ) - p.x) / 180) := by
  rw [vec_eq, vec_eq, show Real.pi * ((q.x : ℝ) - p.x) / 180 = Real.pi * q.x / 180 - Real.pi * p.x / 180 by ring, Real.sin_sub]
  ring

/-- A direction `w` of longitude `l`, off the axis. -/
def HasLon (w : V3) (l : ℝ) : Prop :=
  ∃ ρ : ℝ, 0 < ρ ∧ w.x = ρ * Real.cos (Real.pi * l / 180) ∧ w.y = ρ * Real.sin (Real.pi * l / 180)

theorem arc_iff_of_lt {s : Vec.Seg} (hs : Proper s) (hlt : s.a.x < s.b.x) {w : V3} {l : ℝ} (hw : HasLon w l) (h1 : -180 ≤ l)
    (h2 : l ≤ 180) (hp : w.dot (normal s) = 0) : ((s.a.x : ℝ) ≤ l ∧ l ≤ s.b.x) ↔ OnArc s w := by
  have ca := cos_lat_pos hs.ay
  have cb := cos_lat_pos hs.by_
  have g1 : (-180 : ℝ) < s.a.x := by exact_mod_cast hs.ax.1
  have g2 : (s.a.x : ℝ) < s.b.x := by exact_mod_cast hlt
  have g3 : (s.b.x : ℝ) < 180 := by exact_mod_cast hs.bx.2
  have g4 : (s.b.x : ℝ) - s.a.x < 180 := by
    have h : s.b.x - s.a.x < 180 := by
      have := hs.short; rw [abs_sub_comm, abs_of_pos (by linarith)] at this; exact this
    exact_mod_cast h
  rw [lon_between g1 g2 g3 g4 h1 h2]
  have hk : 0 < (vec s.a).x * (vec s.b).y - (vec s.a).y * (vec s.b).x := by
    rw [horiz]
    exact mul_pos (mul_pos ca cb) (sin_pos_deg (by linarith) g4)
  obtain ⟨ρ, hρ, wx, wy⟩ := hw
  have e1 : w.x * (vec s.b).y - w.y * (vec s.b).x
      = ρ * Real.cos (Real.pi * s.b.y / 180) * Real.sin (Real.pi * ((s.b.x : ℝ) - l) / 180) := by
    rw [wx, wy, vec_eq, show Real.pi * ((s.b.x : ℝ) - l) / 180 = Real.pi * s.b.x / 180 - Real.pi * l / 180 by ring, Real.sin_sub]
    ring
  have e2 : (vec s.a).x * w.y - (vec s.a).y * w.x
      = ρ * Real.cos (Real.pi * s.a.y / 180) * Real.sin (Real.pi * (l - (s.a.x : ℝ)) / 180) := by
    rw [wx, wy, vec_eq, show Real.pi * (l - (s.a.x : ℝ)) / 180 = Real.pi * l / 180 - Real.pi * s.a.x / 180 by ring, Real.sin_sub]
    ring
  constructor
  · rintro ⟨q1, q2⟩
    refine ⟨(w.x * (vec s.b).y - w.y * (vec s.b).x) / ((vec s.a).x * (vec s.b).y - (vec s.a).y * (vec s.b).x),
      ((vec s.a).x * w.y - (vec s.a).y * w.x) / ((vec s.a).x * (vec s.b).y - (vec s.a).y * (vec s.b).x), ?_, ?_, ?_⟩
    · rw [e1]; exact div_nonneg (mul_nonneg (mul_nonneg hρ.le cb.le) q2) hk.le
    · rw [e2]; exact div_nonneg (mul_nonneg (mul_nonneg hρ.le ca.le) q1) hk.le
    · exact arc_coeff hk.ne' hp (div_mul_cancel₀ _ hk.ne') (div_mul_cancel₀ _ hk.ne')
  · rintro ⟨c, d, hc, hd, hx, hy, hz⟩
    obtain ⟨q1, q2⟩ := coeff_of hx hy
    rw [e1] at q1
    rw [e2] at q2
    constructor
    · by_contra hn
      push Not at hn
      have : ρ * Real.cos (Real.pi * s.a.y / 180) * Real.sin (Real.pi * (l - (s.a.x : ℝ)) / 180) < 0 :=
        mul_neg_of_pos_of_neg (mul_pos hρ ca) hn
      have := mul_nonneg hd hk.le
      linarith
    · by_contra hn
      push Not at hn
      have : ρ * Real.cos (Real.pi * s.b.y / 180) * Real.sin (Real.pi * ((s.b.x : ℝ) - l) / 180) < 0 :=
        mul_neg_of_pos_of_neg (mul_pos hρ cb) hn
      have := mul_nonneg hc hk.le
      linarith

/-- The segment in the other direction. -/
def flip (s : Vec.Seg) : Vec.Seg := ⟨s.b, s.a⟩

theorem onArc_flip (s : Vec.Seg) (w : V3) : OnArc (flip s) w ↔ OnArc s w := by
  unfold OnArc flip
  constructor
  · rintro ⟨c, d, hc, hd, h1, h2, h3⟩
    exact ⟨d, c, hd, hc, by rw [h1]; ring, by rw [h2]; ring, by rw [h3]; ring⟩
  · rintro ⟨c, d, hc, hd, h1, h2, h3⟩
    exact ⟨d, c, hd, hc, by rw [h1]; ring, by rw [h2]; ring, by rw [h3]; ring⟩

theorem proper_flip {s : Vec.Seg} (h : Proper s) : Proper (flip s) :=
  ⟨h.bx, h.ax, h.by_, h.ay, h.ne.symm, by show |s.b.x - s.a.x| < 180; rw [abs_sub_comm]; exact h.short⟩

/-- The test of longitudes decides whether a direction on the great circle is on the arc. -/
theorem arc_iff {s : Vec.Seg} (hs : Proper s) {w : V3} {l : ℝ} (hw : HasLon w l) (h1 : -180 ≤ l)
    (h2 : l ≤ 180) (hp : w.dot (normal s) = 0) : betweenInc s.a.x l s.b.x ↔ OnArc s w := by
  unfold betweenInc
  rcases lt_or_gt_of_ne hs.ne with h | h
  · have hr : (s.a.x : ℝ) < s.b.x := by exact_mod_cast h
    rw [min_eq_left hr.le, max_eq_right hr.le]
    exact arc_iff_of_lt hs h hw h1 h2 hp
  · have hr : (s.b.x : ℝ) < s.a.x := by exact_mod_cast h
    rw [min_eq_right hr.le, max_eq_left hr.le, ← onArc_flip]
    refine arc_iff_of_lt (s := flip s) (proper_flip hs) h hw h1 h2 ?_
    simp only [normal, flip, V3.dot, cross] at hp ⊢
    linarith

theorem normal_z {s : Vec.Seg} (hs : Proper s) : (normal s).z ≠ 0 := by
  have ca := cos_lat_pos hs.ay
  have cb := cos_lat_pos hs.by_
  show (vec s.a).x * (vec s.b).y - (vec s.a).y * (vec s.b).x ≠ 0
  rw [horiz]
  refine mul_ne_zero (mul_pos ca cb).ne' ?_
  have hsh := hs.short
  rcases lt_or_gt_of_ne hs.ne with h | h
  · rw [abs_sub_comm, abs_of_pos (by linarith)] at hsh
    have h1 : (s.b.x : ℝ) - s.a.x < 180 := by exact_mod_cast hsh
    have h2 : (s.a.x : ℝ) < s.b.x := by exact_mod_cast h
    exact (sin_pos_deg (by linarith) h1).ne'
  · rw [abs_of_pos (by linarith)] at hsh
    have h1 : (s.a.x : ℝ) - s.b.x < 180 := by exact_mod_cast hsh
    have h2 : (s.b.x : ℝ) < s.a.x := by exact_mod_cast h
    exact (sin_neg_deg (by linarith) (by linarith)).ne

theorem r_pos_of_perp {v n : V3} (hz : n.z ≠ 0) (h : v.dot n = 0) (hv : ¬ (v.x = 0 ∧ v.y = 0 ∧ v.z = 0)) : 0 < v.r := by
  apply Real.sqrt_pos.mpr
  by_contra hc
  have h1 : v.x = 0 := by nlinarith [sq_nonneg v.x, sq_nonneg v.y]
  have h2 : v.y = 0 := by nlinarith [sq_nonneg v.x, sq_nonneg v.y]
  apply hv
  refine ⟨h1, h2, ?_⟩
  simp only [V3.dot, h1, h2] at h
  have : v.z * n.z = 0 := by linarith
  exact (mul_eq_zero.mp this).resolve_right hz

/-- What `cart2sph` returns as longitude. -/
theorem lon_of {v : V3} (hr : 0 < v.r) (hx : NotFar v) : ∃ lon lat, toLonLat v = some (lon, lat) ∧ HasLon v lon ∧
    -180 < lon ∧ lon ≤ 180 := by
  obtain ⟨l1, l2, l3, l4⟩ := lambda_ok (eps := 1 / 10 ^ 8) hr hx
  have hpi := Real.pi_pos
  refine ⟨_, _, by unfold toLonLat; rw [cart2sph_ok hr], ⟨v.r, hr, ?_, ?_⟩, ?_, ?_⟩
  · rw [show Real.pi * (lambdaOf (1 / 10 ^ 8) v * 180 / Real.pi) / 180 = lambdaOf (1 / 10 ^ 8) v by field_simp, l1]
  · rw [show Real.pi * (lambdaOf (1 / 10 ^ 8) v * 180 / Real.pi) / 180 = lambdaOf (1 / 10 ^ 8) v by field_simp, l2]
  · rw [lt_div_iff₀ hpi]; nlinarith
  · rw [div_le_iff₀ hpi]; nlinarith

theorem anti_lon {v : V3} {lon : ℝ} (h : HasLon v lon) : HasLon (V3.opp v) (antiLon lon) ∧ -180 ≤ antiLon lon ∧
    antiLon lon ≤ 180 := by
  obtain ⟨ρ, hρ, hx, hy⟩ := h
  have hm := pyModR_mem (lon + 360) (m := 360) (by norm_num)
  obtain ⟨k, hk⟩ := pyModR_cong (lon + 360) (360 : ℝ)
  have e : Real.pi * antiLon lon / 180 = Real.pi * lon / 180 + Real.pi + k * (2 * Real.pi) := by
    unfold antiLon; rw [hk]; ring
  refine ⟨⟨ρ, hρ, ?_, ?_⟩, by unfold antiLon; linarith [hm.1], by unfold antiLon; linarith [hm.2]⟩
  · rw [e, Real.cos_add_int_mul_two_pi, Real.cos_add_pi]
    show -v.x = _
    rw [hx]; ring
  · rw [e, Real.sin_add_int_mul_two_pi, Real.sin_add_pi]
    show -v.y = _
    rw [hy]; ring

theorem onArc_perp {s : Vec.Seg} {w : V3} (h : OnArc s w) : w.dot (normal s) = 0 := by
  obtain ⟨c, d, -, -, hx, hy, hz⟩ := h
  simp only [V3.dot, normal, cross, hx, hy, hz]
  ring

/-- A direction perpendicular to two independent ones is a multiple of their cross product. -/
theorem multiple {p q w : V3} (hX : ¬ ((cross p q).x = 0 ∧ (cross p q).y = 0 ∧ (cross p q).z = 0)) (h1 : w.dot p = 0) (h2 : w.dot q = 0) :
    ∃ k : ℝ, w.x = k * (cross p q).x ∧ w.y = k * (cross p q).y ∧ w.z = k * (cross p q).z := by
  have hn : 0 < (cross p q).x ^ 2 + (cross p q).y ^ 2 + (cross p q).z ^ 2 := by
    by_contra hc
    apply hX
    refine ⟨?_, ?_, ?_⟩ <;> nlinarith [sq_nonneg (cross p q).x, sq_nonneg (cross p q).y, sq_nonneg (cross p q).z]
  have hy : (w.y * (cross p q).z - w.z * (cross p q).y = 0) ∧ (w.z * (cross p q).x - w.x * (cross p q).z = 0) ∧
      (w.x * (cross p q).y - w.y * (cross p q).x = 0) := by
    simp only [V3.dot, cross] at *
    refine ⟨?_, ?_, ?_⟩
    · linear_combination p.x * h2 - q.x * h1
    · linear_combination p.y * h2 - q.y * h1
    · linear_combination p.z * h2 - q.z * h1
  generalize cross p q = X at *
  refine ⟨(w.x * X.x + w.y * X.y + w.z * X.z) / (X.x ^ 2 + X.y ^ 2 + X.z ^ 2), ?_, ?_, ?_⟩
  · field_simp
    linear_combination X.y * hy.2.2 - X.z * hy.2.1
  · field_simp
    linear_combination X.z * hy.1 - X.x * hy.2.2
  · field_simp
    linear_combination X.x * hy.2.1 - X.y * hy.1

theorem onArc_scale {s : Vec.Seg} {v w : V3} {k : ℝ} (hk : 0 < k) (h : OnArc s w) (hx : w.x = k * v.x) (hy : w.y = k * v.y)
    (hz : w.z = k * v.z) : OnArc s v := by
  obtain ⟨c, d, hc, hd, h1, h2, h3⟩ := h
  refine ⟨c / k, d / k, by positivity, by positivity, ?_, ?_, ?_⟩
  · have : k * v.x = c * (vec s.a).x + d * (vec s.b).x := by rw [← hx, h1]
    field_simp; linarith
  · have : k * v.y = c * (vec s.a).y + d * (vec s.b).y := by rw [← hy, h2]
    field_simp; linarith
  · have : k * v.z = c * (vec s.a).z + d * (vec s.b).z := by rw [← hz, h3]
    field_simp; linarith

theorem meet_iff_node {s r : Vec.Seg} (hd : Different s r) :
    ArcsMeet s r ↔ (OnArc s (nodeOf s r) ∧ OnArc r (nodeOf s r)) ∨
      (OnArc s (V3.opp (nodeOf s r)) ∧ OnArc r (V3.opp (nodeOf s r))) := by
  have hd' := hd
  unfold Different at hd
  constructor
  · rintro ⟨w, hw, h1, h2⟩
    have hX : ¬ ((cross (normal s) (normal r)).x = 0 ∧ (cross (normal s) (normal r)).y = 0 ∧ (cross (normal s) (normal r)).z = 0) := by
      rw [node_eq] at hd
      simpa [V3.opp] using hd
    obtain ⟨k, kx, ky, kz⟩ := multiple hX (onArc_perp h1) (onArc_perp h2)
    rw [node_eq]
    have hk : k ≠ 0 := by
      intro h
      apply hw
      rw [kx, ky, kz, h]; simp
    rcases lt_or_gt_of_ne hk with h | h
    · left
      have e1 : w.x = (-k) * (V3.opp (cross (normal s) (normal r))).x := by rw [kx]; simp [V3.opp]
      have e2 : w.y = (-k) * (V3.opp (cross (normal s) (normal r))).y := by rw [ky]; simp [V3.opp]
      have e3 : w.z = (-k) * (V3.opp (cross (normal s) (normal r))).z := by rw [kz]; simp [V3.opp]
      exact ⟨onArc_scale (by linarith) h1 e1 e2 e3, onArc_scale (by linarith) h2 e1 e2 e3⟩
    · right
      have e1 : w.x = k * (V3.opp (V3.opp (cross (normal s) (normal r)))).x := by rw [kx]; simp [V3.opp]
      have e2 : w.y = k * (V3.opp (V3.opp (cross (normal s) (normal r)))).y := by rw [ky]; simp [V3.opp]
      have e3 : w.z = k * (V3.opp (V3.opp (cross (normal s) (normal r)))).z := by rw [kz]; simp [V3.opp]
      exact ⟨onArc_scale h h1 e1 e2 e3, onArc_scale h h2 e1 e2 e3⟩
  · rintro (⟨h1, h2⟩ | ⟨h1, h2⟩)
    · exact ⟨_, hd, h1, h2⟩
    · exact ⟨_, by simpa [V3.opp] using hd, h1, h2⟩

/-- **C137 (part).**  For two segments on different great circles that do not follow a meridian, do not reach the meridian 180
and span less than 180 degrees of longitude, the test of a pair is true exactly when the two arcs have a point in common.
Missing: the segments excluded (see the theorems below), and crossings within a hair of longitude 90 or -90 on the far
side. -/
theorem C137_pair_partial {s r : Vec.Seg} (hs : Proper s) (hr : Proper r) (hd : Different s r) (hx : NotFar (nodeOf s r)) :
    pairHit s r = true ↔ ArcsMeet s r := by
  obtain ⟨p1, p2⟩ := node_perp s r
  have hrp := r_pos_of_perp (normal_z hs) p1 hd
  obtain ⟨lon, lat, e, hl, l1, l2⟩ := lon_of hrp hx
  obtain ⟨ha, a1, a2⟩ := anti_lon hl
  rw [meet_iff_node hd, ← arc_iff hs hl l1.le l2 p1, ← arc_iff hr hl l1.le l2 p2, ← arc_iff hs ha a1 a2 (opp_perp p1),
    ← arc_iff hr ha a1 a2 (opp_perp p2)]
  unfold pairHit
  rw [show cross3 (pole s) (pole r) = nodeOf s r from rfl, e]
  dsimp only
  by_cases c1 : betweenInc s.a.x lon s.b.x ∧ betweenInc r.a.x lon r.b.x
  · rw [if_pos c1]; simp [c1]
  · rw [if_neg c1]
    by_cases c2 : betweenInc s.a.x (antiLon lon) s.b.x ∧ betweenInc r.a.x (antiLon lon) r.b.x
    · rw [if_pos c2]; simp [c2]
    · rw [if_neg c2]
      simp only [Bool.false_eq_true, false_iff, not_or]
      exact ⟨c1, c2⟩

end Karta.Geod.Cross
