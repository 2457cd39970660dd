import Verif.Geod.HullSph
import Verif.Geod.CrossSphProps
import Verif.Vec.HullScan

/-!
Geometry behind the convex hull on the sphere: the central projection to a plane turns great circles into lines.
-/

namespace Karta.Geod.HullSph
open Karta Karta.Geod Karta.Geod.Sphere Karta.Geod.Cross
open Karta.Vec (Pt P2)
open Karta.Vec.Hull (readPts ptAt leftmost turn Half)

/-- Spec: `p` is within 90 degrees of longitude of the meridian `c` and not a pole. -/
structure Near (c : ℝ) (p : Pt) : Prop where
  lon : |(p.x : ℝ) - c| < 90
  lat : |p.y| < 90

/-- Spec: the volume spanned by the directions of three vertices.  It is positive when, seen from outside the sphere, `p` is on
the left of the great circle that leads from `a` to `b`, and zero when `p` is on that great circle. -/
noncomputable def orient (a b p : Pt) : ℝ := (cross (vec a) (vec b)).dot (vec p)

/-- Central projection from the centre of the sphere to the plane that touches it at longitude `c` on the equator. -/
noncomputable def gnom (c : ℝ) (p : Pt) : P2 ℝ :=
  ⟨Real.tan (rad ((p.x : ℝ) - c)), Real.tan (rad p.y) / Real.cos (rad ((p.x : ℝ) - c))⟩

theorem rad_lt {d e : ℝ} (h : d < e) : rad d < rad e := by
  unfold rad; have := Real.pi_pos; nlinarith

theorem rad_90 : rad 90 = Real.pi / 2 := by unfold rad; ring
theorem rad_neg (d : ℝ) : rad (-d) = - rad d := by unfold rad; ring
theorem rad_sub (d e : ℝ) : rad (d - e) = rad d - rad e := by unfold rad; ring

theorem rad_mem {d : ℝ} (h : |d| < 90) : rad d ∈ Set.Ioo (-(Real.pi / 2)) (Real.pi / 2) := by
  obtain ⟨h1, h2⟩ := abs_lt.mp h
  constructor
  · rw [← rad_90, ← rad_neg]; exact rad_lt h1
  · rw [← rad_90]; exact rad_lt h2

theorem Near.cosLat {c : ℝ} {p : Pt} (h : Near c p) : 0 < Real.cos (rad p.y) :=
  Real.cos_pos_of_mem_Ioo (rad_mem (by have := h.lat; exact_mod_cast this))

theorem Near.cosLon {c : ℝ} {p : Pt} (h : Near c p) : 0 < Real.cos (rad ((p.x : ℝ) - c)) :=
  Real.cos_pos_of_mem_Ioo (rad_mem h.lon)

theorem vec_rot (c : ℝ) (p : Pt) :
    (vec p).x = Real.cos (rad p.y) * (Real.cos (rad ((p.x : ℝ) - c)) * Real.cos (rad c) - Real.sin (rad ((p.x : ℝ) - c)) * Real.sin (rad c)) ∧
    (vec p).y = Real.cos (rad p.y) * (Real.sin (rad ((p.x : ℝ) - c)) * Real.cos (rad c) + Real.cos (rad ((p.x : ℝ) - c)) * Real.sin (rad c)) ∧
    (vec p).z = Real.sin (rad p.y) := by
  rw [vec_eq]
  have e1 : Real.pi * (p.x : ℝ) / 180 = rad ((p.x : ℝ) - c) + rad c := by unfold rad; ring
  have e2 : Real.pi * (p.y : ℝ) / 180 = rad p.y := by unfold rad; ring
  simp only
  rw [e1, e2, Real.cos_add, Real.sin_add]
  exact ⟨rfl, rfl, rfl⟩

theorem turn_gnom {c : ℝ} {a b p : Pt} (ha : Near c a) (hb : Near c b) (hp : Near c p) :
    turn (gnom c a) (gnom c b) (gnom c p) *
      ((Real.cos (rad a.y) * Real.cos (rad ((a.x : ℝ) - c))) * (Real.cos (rad b.y) * Real.cos (rad ((b.x : ℝ) - c))) *
        (Real.cos (rad p.y) * Real.cos (rad ((p.x : ℝ) - c)))) = orient a b p := by
  obtain ⟨ax, ay, az⟩ := vec_rot c a
  obtain ⟨bx, byy, bz⟩ := vec_rot c b
  obtain ⟨px, py, pz⟩ := vec_rot c p
  have h1 := ha.cosLat.ne'
  have h2 := ha.cosLon.ne'
  have h3 := hb.cosLat.ne'
  have h4 := hb.cosLon.ne'
  have h5 := hp.cosLat.ne'
  have h6 := hp.cosLon.ne'
  unfold orient cross V3.dot turn gnom
  simp only [ax, ay, az, bx, byy, bz, px, py, pz, Real.tan_eq_sin_div_cos]
  have hc := Real.cos_sq_add_sin_sq (rad c)
  generalize Real.cos (rad c) = cc at *
  generalize Real.sin (rad c) = sc at *
  generalize Real.cos (rad a.y) = ka at *
  generalize Real.cos (rad b.y) = kb at *
  generalize Real.cos (rad p.y) = kp at *
  generalize Real.sin (rad a.y) = sa at *
  generalize Real.sin (rad b.y) = sb at *
  generalize Real.sin (rad p.y) = sp at *
  generalize Real.cos (rad ((a.x : ℝ) - c)) = Ca at *
  generalize Real.cos (rad ((b.x : ℝ) - c)) = Cb at *
  generalize Real.cos (rad ((p.x : ℝ) - c)) = Cp at *
  generalize Real.sin (rad ((a.x : ℝ) - c)) = Sa at *
  generalize Real.sin (rad ((b.x : ℝ) - c)) = Sb at *
  generalize Real.sin (rad ((p.x : ℝ) - c)) = Sp at *
  field_simp
  have e : ∀ x : ℝ, x = x * (cc ^ 2 + sc ^ 2) := fun x => by rw [hc, mul_one]
  rw [e (_ - _)]
  ring

theorem scale_pos {c : ℝ} {p : Pt} (h : Near c p) : 0 < Real.cos (rad p.y) * Real.cos (rad ((p.x : ℝ) - c)) :=
  mul_pos h.cosLat h.cosLon

theorem turn_pos_iff {c : ℝ} {a b p : Pt} (ha : Near c a) (hb : Near c b) (hp : Near c p) :
    0 < turn (gnom c a) (gnom c b) (gnom c p) ↔ 0 < orient a b p := by
  rw [← turn_gnom ha hb hp]
  exact (mul_pos_iff_of_pos_right (mul_pos (mul_pos (scale_pos ha) (scale_pos hb)) (scale_pos hp))).symm

theorem turn_nonneg_iff {c : ℝ} {a b p : Pt} (ha : Near c a) (hb : Near c b) (hp : Near c p) :
    0 ≤ turn (gnom c a) (gnom c b) (gnom c p) ↔ 0 ≤ orient a b p := by
  rw [← turn_gnom ha hb hp]
  exact (mul_nonneg_iff_of_pos_right (mul_pos (mul_pos (scale_pos ha) (scale_pos hb)) (scale_pos hp))).symm

theorem turn_zero_iff {c : ℝ} {a b p : Pt} (ha : Near c a) (hb : Near c b) (hp : Near c p) :
    turn (gnom c a) (gnom c b) (gnom c p) = 0 ↔ orient a b p = 0 := by
  rw [← turn_gnom ha hb hp, mul_eq_zero]
  constructor
  · exact Or.inl
  · rintro (h | h)
    · exact h
    · exact absurd h (mul_pos (mul_pos (scale_pos ha) (scale_pos hb)) (scale_pos hp)).ne'

/-- The azimuths of `a` and `p` as seen from `b` give the orientation. -/
theorem orient_az {c : ℝ} {a b p : Pt} (ha : Near c a) (hb : Near c b) (hp : Near c p) :
    (east b p * north b a - north b p * east b a) * (Real.cos (rad a.y) * Real.cos (rad p.y)) = orient a b p := by
  obtain ⟨ax, ay, az⟩ := vec_rot c a
  obtain ⟨bx, byy, bz⟩ := vec_rot c b
  obtain ⟨px, py, pz⟩ := vec_rot c p
  have h1 := ha.cosLat.ne'
  have h5 := hp.cosLat.ne'
  have ea : rad ((a.x : ℝ) - b.x) = rad ((a.x : ℝ) - c) - rad ((b.x : ℝ) - c) := by unfold rad; ring
  have ep : rad ((p.x : ℝ) - b.x) = rad ((p.x : ℝ) - c) - rad ((b.x : ℝ) - c) := by unfold rad; ring
  unfold orient cross V3.dot east north
  simp only [ax, ay, az, bx, byy, bz, px, py, pz, Real.tan_eq_sin_div_cos, ea, ep, Real.sin_sub, Real.cos_sub]
  have hc := Real.cos_sq_add_sin_sq (rad c)
  have hb1 := Real.cos_sq_add_sin_sq (rad b.y)
  have hb2 := Real.cos_sq_add_sin_sq (rad ((b.x : ℝ) - c))
  generalize Real.cos (rad c) = cc at *
  generalize Real.sin (rad c) = sc at *
  generalize Real.cos (rad a.y) = ka at *
  generalize Real.cos (rad b.y) = kb at *
  generalize Real.cos (rad p.y) = kp at *
  generalize Real.sin (rad a.y) = sa at *
  generalize Real.sin (rad b.y) = sb at *
  generalize Real.sin (rad p.y) = sp at *
  generalize Real.cos (rad ((a.x : ℝ) - c)) = Ca at *
  generalize Real.cos (rad ((b.x : ℝ) - c)) = Cb at *
  generalize Real.cos (rad ((p.x : ℝ) - c)) = Cp at *
  generalize Real.sin (rad ((a.x : ℝ) - c)) = Sa at *
  generalize Real.sin (rad ((b.x : ℝ) - c)) = Sb at *
  generalize Real.sin (rad ((p.x : ℝ) - c)) = Sp at *
  have q1 : (kb * (sa / ka) - sb * (Ca * Cb + Sa * Sb)) * ka = kb * sa - sb * ka * (Ca * Cb + Sa * Sb) := by field_simp
  have q2 : (kb * (sp / kp) - sb * (Cp * Cb + Sp * Sb)) * kp = kb * sp - sb * kp * (Cp * Cb + Sp * Sb) := by field_simp
  have e0 : ∀ x y u v : ℝ, (x * u - v * y) * (ka * kp) = (x * kp) * (u * ka) - (v * kp) * (y * ka) := by intros; ring
  rw [e0, q1, q2]
  -- both sides without the turn by `c`
  have rot : ∀ x1 y1 x2 y2 : ℝ, (x1 * cc - y1 * sc) * (y2 * cc + x2 * sc) - (y1 * cc + x1 * sc) * (x2 * cc - y2 * sc) =
      x1 * y2 - y1 * x2 := by
    intro x1 y1 x2 y2
    linear_combination (x1 * y2 - y1 * x2) * hc
  have d : (ka * (Sa * cc + Ca * sc) * sb - sa * (kb * (Sb * cc + Cb * sc))) * (kp * (Cp * cc - Sp * sc)) +
      (sa * (kb * (Cb * cc - Sb * sc)) - ka * (Ca * cc - Sa * sc) * sb) * (kp * (Sp * cc + Cp * sc)) +
      (ka * (Ca * cc - Sa * sc) * (kb * (Sb * cc + Cb * sc)) - ka * (Sa * cc + Ca * sc) * (kb * (Cb * cc - Sb * sc))) * sp =
      ka * kp * sb * (Sa * Cp - Ca * Sp) + sa * kb * kp * (Cb * Sp - Sb * Cp) + ka * kb * sp * (Ca * Sb - Sa * Cb) := by
    linear_combination ka * kp * sb * (rot Cp Sp Ca Sa) + sa * kb * kp * (rot Cb Sb Cp Sp) + ka * kb * sp * (rot Ca Sa Cb Sb)
  rw [d]
  linear_combination (ka * kp * sb * (Sa * Cp - Ca * Sp)) * hb2

theorem wrap_pos (t : ℝ) : 0 < pyModR (t + Real.pi) (2 * Real.pi) - Real.pi ↔ 0 < Real.sin t := by
  have hpi := Real.pi_pos
  obtain ⟨h1, h2⟩ := pyModR_mem (t + Real.pi) (m := 2 * Real.pi) (by positivity)
  obtain ⟨k, hk⟩ := pyModR_cong (t + Real.pi) (2 * Real.pi)
  have e : Real.sin (pyModR (t + Real.pi) (2 * Real.pi) - Real.pi) = Real.sin t := by
    rw [hk, show t + Real.pi + 2 * Real.pi * k - Real.pi = t + k * (2 * Real.pi) by ring, Real.sin_add_int_mul_two_pi]
  rw [← e]
  obtain ⟨w, hw⟩ : ∃ w, w = pyModR (t + Real.pi) (2 * Real.pi) - Real.pi := ⟨_, rfl⟩
  rw [← hw]
  constructor
  · intro h
    exact Real.sin_pos_of_pos_of_lt_pi h (by linarith)
  · intro h
    by_contra hn
    have := Real.sin_nonpos_of_nonpos_of_neg_pi_le (x := w) (by linarith) (by linarith)
    linarith

/-- Length of the arguments of `atan2`. -/
noncomputable def reach (p q : Pt) : ℝ := Real.sqrt (north p q ^ 2 + east p q ^ 2)

theorem az_cos (p q : Pt) : reach p q * Real.cos (azimuthSph p q) = north p q := atan2_cos _ _
theorem az_sin (p q : Pt) : reach p q * Real.sin (azimuthSph p q) = east p q := atan2_sin _ _

theorem sin_diff (b p a : Pt) : Real.sin (azimuthSph b p - azimuthSph b a) * (reach b p * reach b a) =
    east b p * north b a - north b p * east b a := by
  rw [Real.sin_sub, ← az_cos b a, ← az_cos b p, ← az_sin b a, ← az_sin b p]
  ring

theorem lon_diff {c : ℝ} {p q : Pt} (hp : Near c p) (hq : Near c q) : |(q.x : ℝ) - p.x| < 180 := by
  have h1 := abs_lt.mp hp.lon
  have h2 := abs_lt.mp hq.lon
  rw [abs_lt]; constructor <;> linarith

theorem rad_pos {d : ℝ} (h : 0 < d) : 0 < rad d := by unfold rad; have := Real.pi_pos; positivity

theorem rad_lt_pi {d : ℝ} (h : d < 180) : rad d < Real.pi := by
  have := rad_lt h
  rwa [show rad 180 = Real.pi by unfold rad; ring] at this

theorem east_pos {c : ℝ} {p q : Pt} (hp : Near c p) (hq : Near c q) (h : p.x < q.x) : 0 < east p q := by
  have h1 := (abs_lt.mp (lon_diff hp hq)).2
  have h' : (p.x : ℝ) < q.x := by exact_mod_cast h
  exact Real.sin_pos_of_pos_of_lt_pi (rad_pos (by linarith)) (rad_lt_pi h1)

theorem east_swap (p q : Pt) : east p q = - east q p := by
  unfold east
  rw [show (q.x : ℝ) - p.x = -((p.x : ℝ) - q.x) by ring, rad_neg, Real.sin_neg]

theorem east_zero {p q : Pt} (h : p.x = q.x) : east p q = 0 := by
  unfold east rad; rw [h]; simp

theorem east_eq_zero {c : ℝ} {p q : Pt} (hp : Near c p) (hq : Near c q) (h : east p q = 0) : p.x = q.x := by
  rcases lt_trichotomy p.x q.x with h1 | h1 | h1
  · exact absurd h (east_pos hp hq h1).ne'
  · exact h1
  · have := east_pos hq hp h1
    rw [east_swap] at this
    linarith

theorem north_meridian {c : ℝ} {p q : Pt} (hq : Near c q) (h : p.x = q.x) :
    north p q * Real.cos (rad q.y) = Real.sin (rad ((q.y : ℝ) - p.y)) := by
  unfold north
  rw [h, sub_self, show rad (0 : ℝ) = 0 by unfold rad; ring, Real.cos_zero, Real.tan_eq_sin_div_cos, rad_sub, Real.sin_sub]
  have := hq.cosLat.ne'
  field_simp

theorem lat_diff {c : ℝ} {p q : Pt} (hp : Near c p) (hq : Near c q) : |(q.y : ℝ) - p.y| < 180 := by
  have h1 : |(p.y : ℝ)| < 90 := by have := hp.lat; exact_mod_cast this
  have h2 : |(q.y : ℝ)| < 90 := by have := hq.lat; exact_mod_cast this
  have h1 := abs_lt.mp h1
  have h2 := abs_lt.mp h2
  rw [abs_lt]; constructor <;> linarith

theorem north_pos {c : ℝ} {p q : Pt} (hp : Near c p) (hq : Near c q) (h : p.x = q.x) (hy : p.y < q.y) : 0 < north p q := by
  have h1 := (abs_lt.mp (lat_diff hp hq)).2
  have h' : (p.y : ℝ) < q.y := by exact_mod_cast hy
  have := Real.sin_pos_of_pos_of_lt_pi (rad_pos (d := (q.y : ℝ) - p.y) (by linarith)) (rad_lt_pi h1)
  rw [← north_meridian hq h] at this
  exact (mul_pos_iff_of_pos_right hq.cosLat).mp this

theorem north_neg {c : ℝ} {p q : Pt} (hp : Near c p) (hq : Near c q) (h : p.x = q.x) (hy : q.y < p.y) : north p q < 0 := by
  have h1 := (abs_lt.mp (lat_diff hq hp)).2
  have h' : (q.y : ℝ) < p.y := by exact_mod_cast hy
  have := Real.sin_pos_of_pos_of_lt_pi (rad_pos (d := (p.y : ℝ) - q.y) (by linarith)) (rad_lt_pi h1)
  rw [show (p.y : ℝ) - q.y = -((q.y : ℝ) - p.y) by ring, rad_neg, Real.sin_neg, ← north_meridian hq h] at this
  by_contra hn
  have := mul_nonneg (not_lt.mp hn) hq.cosLat.le
  linarith

theorem north_self {c : ℝ} {p : Pt} (hp : Near c p) : north p p = 0 := by
  have := north_meridian hp (rfl : p.x = p.x)
  rw [sub_self, show rad (0 : ℝ) = 0 by unfold rad; ring, Real.sin_zero] at this
  exact (mul_eq_zero.mp this).resolve_right hp.cosLat.ne'

theorem azimuth_self {c : ℝ} {p : Pt} (hp : Near c p) : azimuthSph p p = 0 := by
  unfold azimuthSph atan2
  rw [north_self hp, east_zero rfl]
  exact Complex.arg_zero

theorem reach_pos {c : ℝ} {p q : Pt} (hp : Near c p) (hq : Near c q) (h : p ≠ q) : 0 < reach p q := by
  refine Real.sqrt_pos.mpr ?_
  by_cases he : east p q = 0
  · have hx := east_eq_zero hp hq he
    have hn : north p q ≠ 0 := by
      rcases lt_trichotomy p.y q.y with h1 | h1 | h1
      · exact (north_pos hp hq hx h1).ne'
      · exact absurd (by cases p; cases q; simp only at hx h1; rw [hx, h1]) h
      · exact (north_neg hp hq hx h1).ne
    positivity
  · positivity

theorem isleft_iff_sin (a b p : Pt) : isleftSph a b p = true ↔ 0 < Real.sin (azimuthSph b p - azimuthSph b a) := by
  unfold isleftSph
  simp only [decide_eq_true_eq]
  exact wrap_pos _

/-- For three vertices, the middle one different from the others, the test by azimuths is the side of the great circle. -/
theorem isleft_iff {c : ℝ} {a b p : Pt} (ha : Near c a) (hb : Near c b) (hp : Near c p) (hab : a ≠ b) (hbp : b ≠ p) :
    isleftSph a b p = true ↔ 0 < orient a b p := by
  rw [isleft_iff_sin, ← orient_az ha hb hp, ← sin_diff]
  have h1 := reach_pos hb hp hbp
  have h2 := reach_pos hb ha hab.symm
  rw [mul_assoc]
  refine (mul_pos_iff_of_pos_right ?_).symm
  have := ha.cosLat
  have := hp.cosLat
  positivity

/-! ## Directions seen from the leftmost vertex -/

theorem az_half {c : ℝ} {L p : Pt} (hL : Near c L) (hp : Near c p) (h : Half L p) :
    0 < azimuthSph L p ∧ azimuthSph L p ≤ Real.pi := by
  have hm : -Real.pi < azimuthSph L p ∧ azimuthSph L p ≤ Real.pi := atan2_mem _ _
  refine ⟨?_, hm.2⟩
  by_contra hn
  push Not at hn
  have hr : 0 ≤ reach L p := Real.sqrt_nonneg _
  have hs := az_sin L p
  have hc := az_cos L p
  rcases h with h | ⟨h, h'⟩
  · have he := east_pos hL hp h
    have := Real.sin_nonpos_of_nonpos_of_neg_pi_le hn hm.1.le
    have := mul_nonpos_of_nonneg_of_nonpos hr this
    linarith
  · have hne := north_neg hL hp h.symm h'
    have he := east_zero h.symm
    have hpos : 0 < reach L p := reach_pos hL hp (by rintro rfl; exact lt_irrefl _ h')
    rw [he] at hs
    have hs0 := (mul_eq_zero.mp hs).resolve_left hpos.ne'
    have h0 : azimuthSph L p = 0 := by
      by_contra hz
      have hlt : azimuthSph L p < 0 := lt_of_le_of_ne hn hz
      have := Real.sin_neg_of_neg_of_neg_pi_lt hlt hm.1
      linarith
    rw [h0, Real.cos_zero, mul_one] at hc
    linarith

theorem orient_cycle (a b p : Pt) : orient a b p = orient b p a := by
  unfold orient cross V3.dot; ring

theorem orient_swap (a b p : Pt) : orient a b p = - orient b a p := by
  unfold orient cross V3.dot; ring

theorem orient_dir {c : ℝ} {L p q : Pt} (hL : Near c L) (hp : Near c p) (hq : Near c q) :
    Real.sin (azimuthSph L p - azimuthSph L q) * (reach L p * reach L q) * (Real.cos (rad q.y) * Real.cos (rad p.y)) =
      orient L p q := by
  rw [sin_diff, orient_az hq hL hp, orient_cycle]

theorem orient_of_az {c : ℝ} {L p q : Pt} (hL : Near c L) (hp : Near c p) (hq : Near c q) (h1 : Half L p) (h2 : Half L q)
    (h : azimuthSph L q ≤ azimuthSph L p) : 0 ≤ orient L p q := by
  rw [← orient_dir hL hp hq]
  obtain ⟨a1, a2⟩ := az_half hL hp h1
  obtain ⟨b1, b2⟩ := az_half hL hq h2
  have := Real.sin_nonneg_of_nonneg_of_le_pi (x := azimuthSph L p - azimuthSph L q) (by linarith) (by linarith)
  have r1 : 0 ≤ reach L p := Real.sqrt_nonneg _
  have r2 : 0 ≤ reach L q := Real.sqrt_nonneg _
  have := hp.cosLat
  have := hq.cosLat
  positivity

theorem half_ne' {L p : Pt} (h : Half L p) : L ≠ p := by
  rintro rfl
  rcases h with h | ⟨_, h⟩ <;> exact lt_irrefl _ h

theorem az_of_orient {c : ℝ} {L p q : Pt} (hL : Near c L) (hp : Near c p) (hq : Near c q) (h1 : Half L p) (h2 : Half L q)
    (h : orient L p q = 0) : azimuthSph L p = azimuthSph L q := by
  rw [← orient_dir hL hp hq] at h
  obtain ⟨a1, a2⟩ := az_half hL hp h1
  obtain ⟨b1, b2⟩ := az_half hL hq h2
  have r1 := reach_pos hL hp (half_ne' h1)
  have r2 := reach_pos hL hq (half_ne' h2)
  have k1 := hp.cosLat
  have k2 := hq.cosLat
  have hs : Real.sin (azimuthSph L p - azimuthSph L q) = 0 := by
    rcases mul_eq_zero.mp h with h | h
    · rcases mul_eq_zero.mp h with h | h
      · exact h
      · exact absurd h (mul_pos r1 r2).ne'
    · exact absurd h (mul_pos k2 k1).ne'
  have := (Real.sin_eq_zero_iff_of_lt_of_lt (by linarith) (by linarith)).mp hs
  linarith

theorem gnom_half {c : ℝ} {L p : Pt} (hL : Near c L) (hp : Near c p) (h : Half L p) : Half (gnom c L) (gnom c p) := by
  rcases h with h | ⟨h, h'⟩
  · left
    have h' : (L.x : ℝ) < p.x := by exact_mod_cast h
    exact Real.strictMonoOn_tan (rad_mem hL.lon) (rad_mem hp.lon) (rad_lt (by linarith))
  · right
    have hy : (p.y : ℝ) < L.y := by exact_mod_cast h'
    refine ⟨by unfold gnom; rw [h], ?_⟩
    unfold gnom
    simp only
    rw [h]
    refine div_lt_div_of_pos_right ?_ hL.cosLon
    exact Real.strictMonoOn_tan (rad_mem (by have := hp.lat; exact_mod_cast this))
      (rad_mem (by have := hL.lat; exact_mod_cast this)) (rad_lt hy)

/-- A copy of the leftmost vertex is not to the left of a side that ends there. -/
theorem isleft_copy {c : ℝ} {L a : Pt} (hL : Near c L) (ha : Near c a) (h : Half L a) : isleftSph a L L = false := by
  rw [Bool.eq_false_iff]
  intro hl
  rw [isleft_iff_sin, azimuth_self hL, zero_sub, Real.sin_neg] at hl
  obtain ⟨a1, a2⟩ := az_half hL ha h
  have := Real.sin_nonneg_of_nonneg_of_le_pi a1.le a2
  linarith

end Karta.Geod.HullSph
