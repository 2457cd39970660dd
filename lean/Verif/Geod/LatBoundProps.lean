import Verif.Geod.LatBound
import Mathlib.Analysis.SpecialFunctions.Complex.Arg

/-!
Property C104: the bounding latitudes of geographical geometries.
-/

namespace Karta.Geod.LatBound
open Karta Karta.Geod

/-! ### Specification -/

/-- The point of the unit sphere at the given longitude and latitude in degrees. -/
noncomputable def onSphere (p : ℝ × ℝ) : ℝ × ℝ × ℝ :=
  (Real.cos (p.2 * Real.pi / 180) * Real.cos (p.1 * Real.pi / 180), Real.cos (p.2 * Real.pi / 180) * Real.sin (p.1 * Real.pi / 180),
    Real.sin (p.2 * Real.pi / 180))

/-- The great-circle arc between two points that are not opposite (the directions between theirs) has a point of latitude `l`. -/
def ArcLat (p q : ℝ × ℝ) (l : ℝ) : Prop :=
  -90 ≤ l ∧ l ≤ 90 ∧ ∃ s t x y z n : ℝ, 0 ≤ s ∧ 0 ≤ t ∧ 0 < n ∧
    x = s * (onSphere p).1 + t * (onSphere q).1 ∧ y = s * (onSphere p).2.1 + t * (onSphere q).2.1 ∧
    z = s * (onSphere p).2.2 + t * (onSphere q).2.2 ∧ n ^ 2 = x ^ 2 + y ^ 2 + z ^ 2 ∧ z = n * Real.sin (l * Real.pi / 180)

/-- Latitudes are between the poles. -/
def Valid (p : ℝ × ℝ) : Prop := -90 ≤ p.2 ∧ p.2 ≤ 90

/-- The points are opposite each other. -/
def Opposite (p q : ℝ × ℝ) : Prop :=
  (onSphere p).1 = -(onSphere q).1 ∧ (onSphere p).2.1 = -(onSphere q).2.1 ∧ (onSphere p).2.2 = -(onSphere q).2.2

/-! ### Algebra -/

section
variable {c0 z0 c1 z1 C S : ℝ}

theorem gram (h0 : c0 ^ 2 + z0 ^ 2 = 1) (h1 : c1 ^ 2 + z1 ^ 2 = 1) (hC : C ^ 2 + S ^ 2 = 1) :
    (S * c1) ^ 2 + (c0 * z1 - z0 * c1 * C) ^ 2 = 1 - (z0 * z1 + c0 * c1 * C) ^ 2 := by
  have e0 : z0 ^ 2 = 1 - c0 ^ 2 := by linarith
  have e1 : z1 ^ 2 = 1 - c1 ^ 2 := by linarith
  have eS : S ^ 2 = 1 - C ^ 2 := by linarith
  have : (S * c1) ^ 2 + (c0 * z1 - z0 * c1 * C) ^ 2 - (1 - (z0 * z1 + c0 * c1 * C) ^ 2) =
      S ^ 2 * c1 ^ 2 + c0 ^ 2 * z1 ^ 2 + z0 ^ 2 * c1 ^ 2 * C ^ 2 - 1 + z0 ^ 2 * z1 ^ 2 + c0 ^ 2 * c1 ^ 2 * C ^ 2 := by ring
  rw [e0, e1, eS] at this
  linarith [this]

/-- Bound by the peak of the great circle. -/
theorem peak (g s t : ℝ) :
    (z0 ^ 2 + z1 ^ 2 - 2 * g * z0 * z1) * (s ^ 2 + t ^ 2 + 2 * s * t * g) - (1 - g ^ 2) * (s * z0 + t * z1) ^ 2 =
      (s * (z1 - g * z0) - t * (z0 - g * z1)) ^ 2 := by ring

theorem slope (h0 : c0 ^ 2 + z0 ^ 2 = 1) : z1 - (z0 * z1 + c0 * c1 * C) * z0 = c0 * (c0 * z1 - z0 * c1 * C) := by
  linear_combination (-z1) * h0

theorem normal (h0 : c0 ^ 2 + z0 ^ 2 = 1) (h1 : c1 ^ 2 + z1 ^ 2 = 1) (hC : C ^ 2 + S ^ 2 = 1) :
    1 - (z0 * z1 + c0 * c1 * C) ^ 2 - (c0 * c1 * S) ^ 2 = z0 ^ 2 + z1 ^ 2 - 2 * (z0 * z1 + c0 * c1 * C) * z0 * z1 := by
  have eS : S ^ 2 = 1 - C ^ 2 := by linarith
  have ec0 : c0 ^ 2 = 1 - z0 ^ 2 := by linarith
  have ec1 : c1 ^ 2 = 1 - z1 ^ 2 := by linarith
  have : 1 - (z0 * z1 + c0 * c1 * C) ^ 2 - (c0 * c1 * S) ^ 2 - (z0 ^ 2 + z1 ^ 2 - 2 * (z0 * z1 + c0 * c1 * C) * z0 * z1) =
      1 + z0 ^ 2 * z1 ^ 2 - c0 ^ 2 * c1 ^ 2 * C ^ 2 - c0 ^ 2 * c1 ^ 2 * S ^ 2 - z0 ^ 2 - z1 ^ 2 := by ring
  rw [eS, ec0, ec1] at this
  linarith [this]

/-- In the northern half the lower end is lowest. -/
theorem low {g s t n m : ℝ} (hs : 0 ≤ s) (ht : 0 ≤ t) (hn : 0 < n) (hg : g ≤ 1) (hnn : n ^ 2 = s ^ 2 + t ^ 2 + 2 * s * t * g)
    (hm : 0 ≤ m) (h0 : m ≤ z0) (h1 : m ≤ z1) : n * m ≤ s * z0 + t * z1 := by
  have hle : n ≤ s + t := by
    have : n ^ 2 ≤ (s + t) ^ 2 := by nlinarith [mul_nonneg hs ht]
    exact abs_le_of_sq_le_sq' this (by linarith) |>.2
  nlinarith

/-- If the arc leaves the first end downwards, that end is highest. -/
theorem down (h0 : c0 ^ 2 + z0 ^ 2 = 1) {g s t n : ℝ} (hg : g = z0 * z1 + c0 * c1 * C) (hg1 : g ≤ 1)
    (hc0 : 0 ≤ c0) (hz0 : 0 ≤ z0) (hz1 : 0 ≤ z1) (hs : 0 ≤ s) (ht : 0 ≤ t) (hn : 0 < n) (hnn : n ^ 2 = s ^ 2 + t ^ 2 + 2 * s * t * g)
    (hu : c0 * z1 - z0 * c1 * C ≤ 0) : s * z0 + t * z1 ≤ n * z0 := by
  have hd : z1 - g * z0 ≤ 0 := by
    rw [hg, slope h0]
    exact mul_nonpos_of_nonneg_of_nonpos hc0 hu
  have hz : z1 ≤ z0 := by nlinarith
  have : (s * z0 + t * z1) ^ 2 ≤ (n * z0) ^ 2 := by
    rw [mul_pow, hnn]
    have e1 : 2 * s * t * z0 * (z1 - g * z0) ≤ 0 := mul_nonpos_of_nonneg_of_nonpos (by positivity) hd
    have e2 : t ^ 2 * z1 ^ 2 ≤ t ^ 2 * z0 ^ 2 := by
      apply mul_le_mul_of_nonneg_left _ (sq_nonneg t)
      exact pow_le_pow_left₀ hz1 hz 2
    nlinarith
  exact abs_le_of_sq_le_sq' this (by positivity) |>.2

theorem dot_le (h0 : c0 ^ 2 + z0 ^ 2 = 1) (h1 : c1 ^ 2 + z1 ^ 2 = 1) (hC : C ^ 2 + S ^ 2 = 1) :
    -1 ≤ z0 * z1 + c0 * c1 * C ∧ z0 * z1 + c0 * c1 * C ≤ 1 := by
  have h := gram h0 h1 hC
  have : (z0 * z1 + c0 * c1 * C) ^ 2 ≤ 1 := by nlinarith [sq_nonneg (S * c1), sq_nonneg (c0 * z1 - z0 * c1 * C)]
  constructor <;> nlinarith

end

/-! ### Arcs in terms of scalar products -/

/-- Degrees to radians. -/
noncomputable abbrev rad (d : ℝ) : ℝ := d * Real.pi / 180

/-- The scalar product of the directions of two points. -/
noncomputable def gdot (p q : ℝ × ℝ) : ℝ :=
  Real.sin (rad p.2) * Real.sin (rad q.2) + Real.cos (rad p.2) * Real.cos (rad q.2) * Real.cos ((q.1 - p.1) * Real.pi / 180)

theorem cos_diff (p q : ℝ × ℝ) : Real.cos ((q.1 - p.1) * Real.pi / 180) =
    Real.cos (rad p.1) * Real.cos (rad q.1) + Real.sin (rad p.1) * Real.sin (rad q.1) := by
  have : (q.1 - p.1) * Real.pi / 180 = rad q.1 - rad p.1 := by unfold rad; ring
  rw [this, Real.cos_sub]; ring

theorem sq_cs (x : ℝ) : Real.cos x ^ 2 + Real.sin x ^ 2 = 1 := by rw [add_comm]; exact Real.sin_sq_add_cos_sq x

theorem arc_iff (p q : ℝ × ℝ) (l : ℝ) : ArcLat p q l ↔ -90 ≤ l ∧ l ≤ 90 ∧ ∃ s t n : ℝ, 0 ≤ s ∧ 0 ≤ t ∧ 0 < n ∧
    n ^ 2 = s ^ 2 + t ^ 2 + 2 * s * t * gdot p q ∧ s * Real.sin (rad p.2) + t * Real.sin (rad q.2) = n * Real.sin (rad l) := by
  have key : ∀ s t : ℝ, (s * (onSphere p).1 + t * (onSphere q).1) ^ 2 + (s * (onSphere p).2.1 + t * (onSphere q).2.1) ^ 2 +
      (s * (onSphere p).2.2 + t * (onSphere q).2.2) ^ 2 = s ^ 2 + t ^ 2 + 2 * s * t * gdot p q := by
    intro s t
    unfold gdot onSphere
    rw [cos_diff]
    simp only [rad]
    have a1 := sq_cs (p.1 * Real.pi / 180)
    have a2 := sq_cs (p.2 * Real.pi / 180)
    have b1 := sq_cs (q.1 * Real.pi / 180)
    have b2 := sq_cs (q.2 * Real.pi / 180)
    linear_combination s ^ 2 * Real.cos (p.2 * Real.pi / 180) ^ 2 * a1 + s ^ 2 * a2 + t ^ 2 * Real.cos (q.2 * Real.pi / 180) ^ 2 * b1 + t ^ 2 * b2
  constructor
  · rintro ⟨h1, h2, s, t, x, y, z, n, hs, ht, hn, rfl, rfl, rfl, hnn, hz⟩
    refine ⟨h1, h2, s, t, n, hs, ht, hn, ?_, hz⟩
    rw [hnn, key]
  · rintro ⟨h1, h2, s, t, n, hs, ht, hn, hnn, hz⟩
    refine ⟨h1, h2, s, t, _, _, _, n, hs, ht, hn, rfl, rfl, rfl, ?_, hz⟩
    rw [hnn, key]

theorem rad_mem {l : ℝ} (h1 : -90 ≤ l) (h2 : l ≤ 90) : rad l ∈ Set.Icc (-(Real.pi / 2)) (Real.pi / 2) := by
  have := Real.pi_pos
  constructor <;> unfold rad <;> nlinarith

theorem sin_rad_le {a b : ℝ} (ha : -90 ≤ a ∧ a ≤ 90) (hb : -90 ≤ b ∧ b ≤ 90) : Real.sin (rad a) ≤ Real.sin (rad b) ↔ a ≤ b := by
  rw [Real.strictMonoOn_sin.le_iff_le (rad_mem ha.1 ha.2) (rad_mem hb.1 hb.2)]
  have := Real.pi_pos
  unfold rad
  constructor
  · intro h; by_contra hc; push Not at hc; nlinarith
  · intro h; nlinarith

theorem cos_rad_nonneg {a : ℝ} (ha : -90 ≤ a ∧ a ≤ 90) : 0 ≤ Real.cos (rad a) :=
  Real.cos_nonneg_of_mem_Icc (rad_mem ha.1 ha.2)

theorem sin_rad_nonneg {a : ℝ} (h0 : 0 ≤ a) (h1 : a ≤ 90) : 0 ≤ Real.sin (rad a) := by
  have := (sin_rad_le (a := 0) (b := a) ⟨by norm_num, by norm_num⟩ ⟨by linarith, h1⟩).2 h0
  simpa [rad] using this

theorem arc_start {p q : ℝ × ℝ} (hp : Valid p) : ArcLat p q p.2 :=
  (arc_iff p q _).2 ⟨hp.1, hp.2, 1, 0, 1, zero_le_one, le_rfl, one_pos, by ring, by ring⟩

theorem arc_end {p q : ℝ × ℝ} (hq : Valid q) : ArcLat p q q.2 :=
  (arc_iff p q _).2 ⟨hq.1, hq.2, 0, 1, 1, le_rfl, zero_le_one, one_pos, by ring, by ring⟩

theorem gdot_symm (p q : ℝ × ℝ) : gdot q p = gdot p q := by
  unfold gdot
  rw [show (p.1 - q.1) * Real.pi / 180 = -((q.1 - p.1) * Real.pi / 180) by ring, Real.cos_neg]
  ring

theorem gdot_le (p q : ℝ × ℝ) : -1 ≤ gdot p q ∧ gdot p q ≤ 1 :=
  dot_le (sq_cs _) (sq_cs _) (sq_cs ((q.1 - p.1) * Real.pi / 180))

/-! ### Azimuths -/

theorem turned_eq {az : ℝ} (h1 : -Real.pi < az) (h2 : az ≤ Real.pi) : turned az = |az| := by
  unfold turned
  have hpi := Real.pi_pos
  rcases h2.lt_or_eq with h | h
  · rw [pyModR_self (by linarith) (by linarith)]
    congr 1; ring
  · have : pyModR (az + Real.pi) (2 * Real.pi) = 0 := by
      have := pyModR_add 0 (m := 2 * Real.pi) (by linarith) 1
      rw [h]
      have e : Real.pi + Real.pi = 0 + 2 * Real.pi * ((1 : ℤ) : ℝ) := by push_cast; ring
      rw [e, this, pyModR_self le_rfl (by linarith)]
    rw [this, h, zero_sub, abs_neg]

/-- The component of the departure towards the north. -/
noncomputable def rise (d a b : ℝ) : ℝ := Real.cos a * Real.sin b - Real.sin a * Real.cos b * Real.cos d

theorem up_iff {d a b : ℝ} (hne : (Real.sin d * Real.cos b) ^ 2 + rise d a b ^ 2 ≠ 0) :
    turned (azim d a b) < 1 / 2 * Real.pi ↔ 0 < rise d a b := by
  have hm := atan2_mem (Real.sin d * Real.cos b) (rise d a b)
  have : azim d a b = atan2 (Real.sin d * Real.cos b) (rise d a b) := rfl
  rw [this, turned_eq hm.1 hm.2, show 1 / 2 * Real.pi = Real.pi / 2 by ring]
  unfold atan2
  rw [Complex.abs_arg_lt_pi_div_two_iff]
  constructor
  · rintro (h | h)
    · exact h
    · exfalso
      apply hne
      rw [Complex.ext_iff] at h
      simp only [Complex.zero_re, Complex.zero_im] at h
      rw [h.1, h.2]; norm_num
  · exact Or.inl

theorem down_iff (d a b : ℝ) : turned (azim d a b) > 1 / 2 * Real.pi ↔ rise d a b < 0 := by
  have hm := atan2_mem (Real.sin d * Real.cos b) (rise d a b)
  have : azim d a b = atan2 (Real.sin d * Real.cos b) (rise d a b) := rfl
  rw [this, turned_eq hm.1 hm.2, show 1 / 2 * Real.pi = Real.pi / 2 by ring]
  unfold atan2
  rw [gt_iff_lt, ← not_le, Complex.abs_arg_le_pi_div_two_iff, not_le]

/-- The height of the peak of the great circle (Clairaut). -/
theorem peak_height {d a b g : ℝ} (ha : 0 ≤ Real.cos a) (hg : g = Real.sin a * Real.sin b + Real.cos a * Real.cos b * Real.cos d)
    (hne : 1 - g ^ 2 ≠ 0) :
    0 ≤ Real.sin (Real.arccos |Real.sin (azim d a b) * Real.cos a|) ∧
    Real.sin (Real.arccos |Real.sin (azim d a b) * Real.cos a|) ^ 2 * (1 - g ^ 2) =
      Real.sin a ^ 2 + Real.sin b ^ 2 - 2 * g * Real.sin a * Real.sin b := by
  have hG := gram (S := Real.sin d) (C := Real.cos d) (sq_cs a) (sq_cs b) (sq_cs d)
  have hN := normal (S := Real.sin d) (C := Real.cos d) (sq_cs a) (sq_cs b) (sq_cs d)
  rw [← hg] at hG hN
  refine ⟨Real.sin_nonneg_of_nonneg_of_le_pi (Real.arccos_nonneg _) (Real.arccos_le_pi _), ?_⟩
  rw [Real.sin_arccos, Real.sq_sqrt, sq_abs]
  · have hs := atan2_sin (Real.sin d * Real.cos b) (rise d a b)
    have haz : azim d a b = atan2 (Real.sin d * Real.cos b) (rise d a b) := rfl
    have hsq : (rise d a b ^ 2 + (Real.sin d * Real.cos b) ^ 2) * Real.sin (azim d a b) ^ 2 = (Real.sin d * Real.cos b) ^ 2 := by
      rw [haz]
      have h2 := congrArg (· ^ 2) hs
      beta_reduce at h2
      rw [mul_pow, Real.sq_sqrt (by positivity)] at h2
      exact h2
    have hr : rise d a b ^ 2 + (Real.sin d * Real.cos b) ^ 2 = 1 - g ^ 2 := by rw [← hG]; unfold rise; ring
    rw [hr] at hsq
    rw [← hN]
    linear_combination (-(Real.cos a ^ 2)) * hsq
  · have h1 := Real.neg_one_le_sin (azim d a b)
    have h2 := Real.sin_le_one (azim d a b)
    have h3 := Real.cos_le_one a
    rw [sq_abs, sub_nonneg, mul_pow]
    have : Real.sin (azim d a b) ^ 2 ≤ 1 := by nlinarith
    have : Real.cos a ^ 2 ≤ 1 := by nlinarith
    nlinarith [sq_nonneg (Real.sin (azim d a b)), sq_nonneg (Real.cos a)]

theorem deg_rad (l : ℝ) : rad (l * 180 / Real.pi) = l := by
  unfold rad
  have := Real.pi_ne_zero
  field_simp

theorem fsign_north {a : ℝ} (h : 0 ≤ a) : fsign a = 1 := by
  unfold fsign
  rcases h.lt_or_eq with h | h
  · rw [if_neg h.ne', if_pos h]
  · rw [if_pos h.symm]

theorem fsign_south {a : ℝ} (h : a < 0) : fsign a = -1 := by
  unfold fsign
  rw [if_neg h.ne, if_neg (by linarith)]

theorem min_rad (a b : ℝ) : min (a * Real.pi / 180) (b * Real.pi / 180) * 180 / Real.pi = min a b := by
  have hpi := Real.pi_pos
  rcases le_total a b with h | h
  · rw [min_eq_left h, min_eq_left (by nlinarith)]; field_simp
  · rw [min_eq_right h, min_eq_right (by nlinarith)]; field_simp

theorem max_rad (a b : ℝ) : max (a * Real.pi / 180) (b * Real.pi / 180) * 180 / Real.pi = max a b := by
  have hpi := Real.pi_pos
  rcases le_total a b with h | h
  · rw [max_eq_right h, max_eq_right (by nlinarith)]; field_simp
  · rw [max_eq_left h, max_eq_left (by nlinarith)]; field_simp

theorem form_pos {g x y : ℝ} (hg : 0 < 1 - g ^ 2) (h : ¬(x = 0 ∧ y = 0)) : 0 < x ^ 2 + y ^ 2 - 2 * g * x * y := by
  have e : x ^ 2 + y ^ 2 - 2 * g * x * y = (y - g * x) ^ 2 + (1 - g ^ 2) * x ^ 2 := by ring
  rw [e]
  by_cases hx : x = 0
  · have hy : y ≠ 0 := fun hy => h ⟨hx, hy⟩
    rw [hx]
    have : (y - g * 0) ^ 2 + (1 - g ^ 2) * 0 ^ 2 = y ^ 2 := by ring
    rw [this]
    positivity
  · positivity

/-- Bounds that hold and are attained. -/
def Exact (p q : ℝ × ℝ) (b : ℝ × ℝ) : Prop := (∀ l, ArcLat p q l → b.1 ≤ l ∧ l ≤ b.2) ∧ ArcLat p q b.1 ∧ ArcLat p q b.2

theorem north {p q : ℝ × ℝ} (hp : Valid p) (hq : Valid q) (p0 : 0 ≤ p.2) (q0 : 0 ≤ q.2) (hd : (q.1 - p.1) * Real.pi / 180 ≠ 0)
    (hne : 1 - gdot p q ^ 2 ≠ 0) : ∃ b, bndlat p q = some b ∧ Exact p q b := by
  have hz0 := sin_rad_nonneg p0 hp.2
  have hz1 := sin_rad_nonneg q0 hq.2
  have hc0 := cos_rad_nonneg hp
  have hc1 := cos_rad_nonneg hq
  have hgl := gdot_le p q
  have hpos : 0 < 1 - gdot p q ^ 2 := lt_of_le_of_ne (by nlinarith) (Ne.symm hne)
  have G1 := gram (S := Real.sin ((q.1 - p.1) * Real.pi / 180)) (C := Real.cos ((q.1 - p.1) * Real.pi / 180)) (sq_cs (rad p.2)) (sq_cs (rad q.2)) (sq_cs _)
  have hlow : ∀ l, ArcLat p q l → min p.2 q.2 ≤ l := by
    intro l hl
    obtain ⟨h1, h2, s, t, n, hs, ht, hn, hnn, hz⟩ := (arc_iff p q l).1 hl
    have hm : -90 ≤ min p.2 q.2 ∧ min p.2 q.2 ≤ 90 := ⟨le_min hp.1 hq.1, (min_le_left _ _).trans hp.2⟩
    rw [← sin_rad_le hm ⟨h1, h2⟩]
    have := low (z0 := Real.sin (rad p.2)) (z1 := Real.sin (rad q.2)) hs ht hn hgl.2 hnn (sin_rad_nonneg (le_min p0 q0) hm.2)
      ((sin_rad_le hm hp).2 (min_le_left _ _)) ((sin_rad_le hm hq).2 (min_le_right _ _))
    rw [hz] at this
    exact le_of_mul_le_mul_left this hn
  have hmin : ArcLat p q (min p.2 q.2) := by
    rcases le_total p.2 q.2 with h | h
    · rw [min_eq_left h]; exact arc_start hp
    · rw [min_eq_right h]; exact arc_end hq
  have hmax : ArcLat p q (max p.2 q.2) := by
    rcases le_total p.2 q.2 with h | h
    · rw [max_eq_right h]; exact arc_end hq
    · rw [max_eq_left h]; exact arc_start hp
  have hup0 : turned (azim ((q.1 - p.1) * Real.pi / 180) (rad p.2) (rad q.2)) < 1 / 2 * Real.pi ↔ 0 < rise ((q.1 - p.1) * Real.pi / 180) (rad p.2) (rad q.2) := by
    apply up_iff
    unfold rise
    rw [G1]
    exact hne
  have hup1 : turned (azim (-((q.1 - p.1) * Real.pi / 180)) (rad q.2) (rad p.2)) < 1 / 2 * Real.pi ↔ 0 < rise ((q.1 - p.1) * Real.pi / 180) (rad q.2) (rad p.2) := by
    have e : rise (-((q.1 - p.1) * Real.pi / 180)) (rad q.2) (rad p.2) = rise ((q.1 - p.1) * Real.pi / 180) (rad q.2) (rad p.2) := by
      unfold rise; rw [Real.cos_neg]
    rw [← e]
    apply up_iff
    have G2 := gram (S := Real.sin (-((q.1 - p.1) * Real.pi / 180))) (C := Real.cos (-((q.1 - p.1) * Real.pi / 180))) (sq_cs (rad q.2)) (sq_cs (rad p.2)) (sq_cs _)
    unfold rise
    rw [G2, Real.cos_neg]
    have : Real.sin (rad q.2) * Real.sin (rad p.2) + Real.cos (rad q.2) * Real.cos (rad p.2) * Real.cos ((q.1 - p.1) * Real.pi / 180) = gdot p q := by
      unfold gdot; ring
    rw [this]
    exact hne
  unfold bndlat
  simp only
  rw [if_neg (by rintro ⟨h, -⟩; exact hd h), if_neg (by rw [fsign_north p0, fsign_north q0]; rintro (h | h); exacts [hd h, h rfl]), if_pos (fsign_north p0)]
  rw [min_rad, max_rad]
  refine ⟨_, rfl, ?_⟩
  by_cases hu : 0 < rise ((q.1 - p.1) * Real.pi / 180) (rad p.2) (rad q.2) ∧ 0 < rise ((q.1 - p.1) * Real.pi / 180) (rad q.2) (rad p.2)
  · rw [if_pos ⟨hup0.2 hu.1, hup1.2 hu.2⟩]
    obtain ⟨ph0, ph⟩ := peak_height (d := (q.1 - p.1) * Real.pi / 180) (a := rad p.2) (b := rad q.2) (g := gdot p q) hc0 rfl hne
    set w := Real.arccos |Real.sin (azim ((q.1 - p.1) * Real.pi / 180) (rad p.2) (rad q.2)) * Real.cos (rad p.2)| with hw
    have hw0 : 0 ≤ w := Real.arccos_nonneg _
    have hw1 : w ≤ Real.pi / 2 := Real.arccos_le_pi_div_two.2 (abs_nonneg _)
    have hwd : -90 ≤ w * 180 / Real.pi ∧ w * 180 / Real.pi ≤ 90 := by
      have hpi := Real.pi_pos
      constructor
      · have : 0 ≤ w * 180 / Real.pi := by positivity
        linarith
      · rw [div_le_iff₀ hpi]; linarith
    refine ⟨fun l hl => ⟨hlow l hl, ?_⟩, hmin, ?_⟩
    · obtain ⟨h1, h2, s, t, n, hs, ht, hn, hnn, hz⟩ := (arc_iff p q l).1 hl
      show l ≤ w * 180 / Real.pi
      rw [← sin_rad_le ⟨h1, h2⟩ hwd, deg_rad]
      have P := peak (z0 := Real.sin (rad p.2)) (z1 := Real.sin (rad q.2)) (gdot p q) s t
      rw [← hnn, ← ph, hz] at P
      have hsq : (n * Real.sin (rad l)) ^ 2 ≤ (n * Real.sin w) ^ 2 := by
        have : (1 - gdot p q ^ 2) * ((n * Real.sin w) ^ 2 - (n * Real.sin (rad l)) ^ 2) ≥ 0 := by
          have e : (1 - gdot p q ^ 2) * ((n * Real.sin w) ^ 2 - (n * Real.sin (rad l)) ^ 2) =
            Real.sin w ^ 2 * (1 - gdot p q ^ 2) * n ^ 2 - (1 - gdot p q ^ 2) * (n * Real.sin (rad l)) ^ 2 := by ring
          rw [e, P]
          positivity
        have := nonneg_of_mul_nonneg_right this hpos
        linarith
      have := abs_le_of_sq_le_sq' hsq (by positivity) |>.2
      exact le_of_mul_le_mul_left this hn
    · show ArcLat p q (w * 180 / Real.pi)
      have S0 := slope (z1 := Real.sin (rad q.2)) (c1 := Real.cos (rad q.2)) (C := Real.cos ((q.1 - p.1) * Real.pi / 180)) (sq_cs (rad p.2))
      have S1 := slope (z1 := Real.sin (rad p.2)) (c1 := Real.cos (rad p.2)) (C := Real.cos ((q.1 - p.1) * Real.pi / 180)) (sq_cs (rad q.2))
      have e1 : Real.sin (rad q.2) * Real.sin (rad p.2) + Real.cos (rad q.2) * Real.cos (rad p.2) * Real.cos ((q.1 - p.1) * Real.pi / 180) = gdot p q := by
        unfold gdot; ring
      rw [e1] at S1
      change Real.sin (rad q.2) - gdot p q * Real.sin (rad p.2) = Real.cos (rad p.2) * rise ((q.1 - p.1) * Real.pi / 180) (rad p.2) (rad q.2) at S0
      change Real.sin (rad p.2) - gdot p q * Real.sin (rad q.2) = Real.cos (rad q.2) * rise ((q.1 - p.1) * Real.pi / 180) (rad q.2) (rad p.2) at S1
      set Q := Real.sin (rad p.2) ^ 2 + Real.sin (rad q.2) ^ 2 - 2 * gdot p q * Real.sin (rad p.2) * Real.sin (rad q.2) with hQ
      have hQ0 : 0 < Q := by
        apply form_pos hpos
        rintro ⟨q3, q4⟩
        have := hu.1
        unfold rise at this
        rw [q3, q4] at this
        simp at this
      refine (arc_iff p q _).2 ⟨hwd.1, hwd.2, Real.sin (rad p.2) - gdot p q * Real.sin (rad q.2), Real.sin (rad q.2) - gdot p q * Real.sin (rad p.2),
        Real.sqrt (Q * (1 - gdot p q ^ 2)), ?_, ?_, Real.sqrt_pos.2 (by positivity), ?_, ?_⟩
      · rw [S1]; exact mul_nonneg hc1 hu.2.le
      · rw [S0]; exact mul_nonneg hc0 hu.1.le
      · rw [Real.sq_sqrt (by positivity), hQ]; ring
      · rw [deg_rad]
        have e : Real.sqrt (Q * (1 - gdot p q ^ 2)) * Real.sin w = Q := by
          have h1 : (Real.sqrt (Q * (1 - gdot p q ^ 2)) * Real.sin w) ^ 2 = Q ^ 2 := by
            rw [mul_pow, Real.sq_sqrt (by positivity)]
            linear_combination Q * ph
          have h2 : 0 ≤ Real.sqrt (Q * (1 - gdot p q ^ 2)) * Real.sin w := mul_nonneg (Real.sqrt_nonneg _) ph0
          exact (pow_left_inj₀ h2 hQ0.le two_ne_zero).1 h1
        rw [e, hQ]; ring
  · rw [if_neg (by rw [hup0, hup1]; exact hu)]
    refine ⟨fun l hl => ⟨hlow l hl, ?_⟩, hmin, hmax⟩
    obtain ⟨h1, h2, s, t, n, hs, ht, hn, hnn, hz⟩ := (arc_iff p q l).1 hl
    show l ≤ max p.2 q.2
    by_cases hu0 : 0 < rise ((q.1 - p.1) * Real.pi / 180) (rad p.2) (rad q.2)
    · have hu1 : rise ((q.1 - p.1) * Real.pi / 180) (rad q.2) (rad p.2) ≤ 0 := by
        by_contra hc; push Not at hc; exact hu ⟨hu0, hc⟩
      refine le_trans ?_ (le_max_right _ _)
      rw [← sin_rad_le ⟨h1, h2⟩ hq]
      have := down (c1 := Real.cos (rad p.2)) (C := Real.cos ((q.1 - p.1) * Real.pi / 180)) (z1 := Real.sin (rad p.2)) (sq_cs (rad q.2)) (g := gdot p q)
        (by unfold gdot; ring) hgl.2 hc1 hz1 hz0 ht hs hn (by rw [hnn]; ring) hu1
      rw [add_comm, hz] at this
      exact le_of_mul_le_mul_left this hn
    · push Not at hu0
      refine le_trans ?_ (le_max_left _ _)
      rw [← sin_rad_le ⟨h1, h2⟩ hp]
      have := down (c1 := Real.cos (rad q.2)) (C := Real.cos ((q.1 - p.1) * Real.pi / 180)) (z1 := Real.sin (rad q.2)) (sq_cs (rad p.2)) (g := gdot p q)
        rfl hgl.2 hc0 hz0 hz1 hs ht hn hnn hu0
      rw [hz] at this
      exact le_of_mul_le_mul_left this hn

/-! ### Equal longitudes, opposite hemispheres -/

theorem arc_symm {p q : ℝ × ℝ} {l : ℝ} (h : ArcLat p q l) : ArcLat q p l := by
  obtain ⟨h1, h2, s, t, n, hs, ht, hn, hnn, hz⟩ := (arc_iff p q l).1 h
  exact (arc_iff q p l).2 ⟨h1, h2, t, s, n, ht, hs, hn, by rw [hnn, gdot_symm]; ring, by rw [← hz]; ring⟩

theorem exact_symm {p q b : ℝ × ℝ} (h : Exact p q b) : Exact q p b :=
  ⟨fun l hl => h.1 l (arc_symm hl), arc_symm h.2.1, arc_symm h.2.2⟩

/-- An arc that leaves the first end downwards, in the upper half. -/
theorem leave {z0 z1 c0 c1 C g s t n : ℝ} (h0 : c0 ^ 2 + z0 ^ 2 = 1) (hg : g = z0 * z1 + c0 * c1 * C) (hg1 : -1 ≤ g ∧ g ≤ 1)
    (hc0 : 0 ≤ c0) (hz0 : 0 ≤ z0) (ht : 0 ≤ t) (hn : 0 < n) (hnn : n ^ 2 = s ^ 2 + t ^ 2 + 2 * s * t * g)
    (hu : c0 * z1 - z0 * c1 * C ≤ 0) : s * z0 + t * z1 ≤ n * z0 := by
  have hs := slope (z1 := z1) (c1 := c1) (C := C) h0
  rw [← hg] at hs
  have e : s * z0 + t * z1 = z0 * (s + t * g) + t * (c0 * (c0 * z1 - z0 * c1 * C)) := by rw [← hs]; ring
  have h1 : t * (c0 * (c0 * z1 - z0 * c1 * C)) ≤ 0 := mul_nonpos_of_nonneg_of_nonpos ht (mul_nonpos_of_nonneg_of_nonpos hc0 hu)
  have h2 : s + t * g ≤ n := by
    have : (s + t * g) ^ 2 ≤ n ^ 2 := by
      rw [hnn]
      have : 0 ≤ t ^ 2 * (1 - g ^ 2) := mul_nonneg (sq_nonneg _) (by nlinarith)
      nlinarith
    exact abs_le_of_sq_le_sq' this hn.le |>.2
  rw [e]
  nlinarith

theorem crossing {p q : ℝ × ℝ} (hp : Valid p) (hq : Valid q) (p0 : 0 ≤ p.2) (q0 : q.2 ≤ 0) (hC : 0 ≤ Real.cos ((q.1 - p.1) * Real.pi / 180)) :
    Exact p q (q.2, p.2) := by
  have hz0 := sin_rad_nonneg p0 hp.2
  have hz1 : Real.sin (rad q.2) ≤ 0 := by
    have := (sin_rad_le (a := q.2) (b := 0) hq ⟨by norm_num, by norm_num⟩).2 q0
    simpa [rad] using this
  have hc0 := cos_rad_nonneg hp
  have hc1 := cos_rad_nonneg hq
  have hgl := gdot_le p q
  refine ⟨fun l hl => ?_, arc_end hq, arc_start hp⟩
  obtain ⟨h1, h2, s, t, n, hs, ht, hn, hnn, hz⟩ := (arc_iff p q l).1 hl
  constructor
  · show q.2 ≤ l
    rw [← sin_rad_le hq ⟨h1, h2⟩]
    have := leave (z0 := -Real.sin (rad q.2)) (z1 := -Real.sin (rad p.2)) (c0 := Real.cos (rad q.2)) (c1 := Real.cos (rad p.2))
      (C := Real.cos ((q.1 - p.1) * Real.pi / 180)) (g := gdot p q) (s := t) (t := s) (n := n)
      (by rw [neg_sq]; exact sq_cs _) (by unfold gdot; ring) hgl hc1 (by linarith) hs hn (by rw [hnn]; ring) (by
        have a1 := mul_nonneg hc1 hz0
        have a2 := mul_nonneg (mul_nonneg (neg_nonneg.2 hz1) hc0) hC
        nlinarith)
    have e : n * Real.sin (rad q.2) ≤ n * Real.sin (rad l) := by rw [← hz]; linarith
    exact le_of_mul_le_mul_left e hn
  · show l ≤ p.2
    rw [← sin_rad_le ⟨h1, h2⟩ hp]
    have := leave (z0 := Real.sin (rad p.2)) (z1 := Real.sin (rad q.2)) (c0 := Real.cos (rad p.2)) (c1 := Real.cos (rad q.2))
      (C := Real.cos ((q.1 - p.1) * Real.pi / 180)) (g := gdot p q) (s := s) (t := t) (n := n)
      (sq_cs _) rfl hgl hc0 hz0 ht hn hnn (by
        have a1 := mul_nonneg hc0 (neg_nonneg.2 hz1)
        have a2 := mul_nonneg (mul_nonneg hz0 hc1) hC
        nlinarith)
    rw [hz] at this
    exact le_of_mul_le_mul_left this hn

theorem meridian_le {p q : ℝ × ℝ} (hp : Valid p) (hq : Valid q) (hlon : p.1 = q.1) (hle : q.2 ≤ p.2) {l : ℝ} (hl : ArcLat p q l) : l ≤ p.2 := by
  obtain ⟨h1, h2, s, t, n, hs, ht, hn, hnn, hz⟩ := (arc_iff p q l).1 hl
  have hpi := Real.pi_pos
  have hg : gdot p q = Real.sin (rad p.2) * Real.sin (rad q.2) + Real.cos (rad p.2) * Real.cos (rad q.2) := by
    unfold gdot
    rw [hlon, sub_self, zero_mul, zero_div, Real.cos_zero, mul_one]
  have hh0 : 0 ≤ s * Real.cos (rad p.2) + t * Real.cos (rad q.2) :=
    add_nonneg (mul_nonneg hs (cos_rad_nonneg hp)) (mul_nonneg ht (cos_rad_nonneg hq))
  have hh : n * Real.cos (rad l) = s * Real.cos (rad p.2) + t * Real.cos (rad q.2) := by
    have h : (n * Real.cos (rad l)) ^ 2 = (s * Real.cos (rad p.2) + t * Real.cos (rad q.2)) ^ 2 := by
      have e := sq_cs (rad l)
      have e0 := sq_cs (rad p.2)
      have e1 := sq_cs (rad q.2)
      have hz2 : (n * Real.sin (rad l)) ^ 2 = (s * Real.sin (rad p.2) + t * Real.sin (rad q.2)) ^ 2 := by rw [hz]
      rw [hg] at hnn
      linear_combination n ^ 2 * e + hnn - hz2 - s ^ 2 * e0 - t ^ 2 * e1
    exact (pow_left_inj₀ (mul_nonneg hn.le (cos_rad_nonneg ⟨h1, h2⟩)) hh0 two_ne_zero).1 h
  have hsin : n * Real.sin (rad p.2 - rad l) = t * Real.sin (rad p.2 - rad q.2) := by
    rw [Real.sin_sub, Real.sin_sub]
    linear_combination Real.sin (rad p.2) * hh + Real.cos (rad p.2) * hz
  by_contra hc
  push Not at hc
  have mp := rad_mem hp.1 hp.2
  have mq := rad_mem hq.1 hq.2
  have ml := rad_mem h1 h2
  have hr1 : rad p.2 < rad l := by unfold rad; nlinarith
  have hr2 : rad q.2 ≤ rad p.2 := by unfold rad; nlinarith
  have hnn0 : 0 ≤ t * Real.sin (rad p.2 - rad q.2) :=
    mul_nonneg ht (Real.sin_nonneg_of_nonneg_of_le_pi (by linarith) (by linarith [mp.2, mq.1]))
  rw [← hsin] at hnn0
  rcases (show -Real.pi ≤ rad p.2 - rad l by linarith [mp.1, ml.2]).lt_or_eq with h | h
  · have := Real.sin_neg_of_neg_of_neg_pi_lt (by linarith : rad p.2 - rad l < 0) h
    nlinarith
  · have el : rad l = Real.pi / 2 := by linarith [mp.1, ml.2]
    have ep : rad p.2 = -(Real.pi / 2) := by linarith [mp.1, ml.2]
    have eq : rad q.2 = -(Real.pi / 2) := by linarith [mq.1]
    rw [el, ep, eq, Real.sin_neg, Real.sin_pi_div_two] at hz
    linarith

theorem mirror_arc (p q : ℝ × ℝ) (l : ℝ) : ArcLat p q l ↔ ArcLat (p.1, -p.2) (q.1, -q.2) (-l) := by
  have e : ∀ x : ℝ, rad (-x) = -rad x := fun x => by unfold rad; ring
  have hg : gdot (p.1, -p.2) (q.1, -q.2) = gdot p q := by
    unfold gdot
    simp only [e, Real.sin_neg, Real.cos_neg]
    ring
  rw [arc_iff, arc_iff, hg]
  simp only [e, Real.sin_neg]
  constructor
  · rintro ⟨h1, h2, s, t, n, hs, ht, hn, hnn, hz⟩
    exact ⟨by linarith, by linarith, s, t, n, hs, ht, hn, hnn, by linarith⟩
  · rintro ⟨h1, h2, s, t, n, hs, ht, hn, hnn, hz⟩
    exact ⟨by linarith, by linarith, s, t, n, hs, ht, hn, hnn, by linarith⟩

theorem exact_mirror {p q b : ℝ × ℝ} (h : Exact (p.1, -p.2) (q.1, -q.2) b) : Exact p q (-b.2, -b.1) := by
  refine ⟨fun l hl => ?_, (mirror_arc p q _).2 (by rw [neg_neg]; exact h.2.2), (mirror_arc p q _).2 (by rw [neg_neg]; exact h.2.1)⟩
  have := h.1 _ ((mirror_arc p q l).1 hl)
  exact ⟨show -b.2 ≤ l by linarith, show l ≤ -b.1 by linarith⟩

theorem meridian {p q : ℝ × ℝ} (hp : Valid p) (hq : Valid q) (hlon : p.1 = q.1) : Exact p q (min p.2 q.2, max p.2 q.2) := by
  have key : ∀ p q : ℝ × ℝ, Valid p → Valid q → p.1 = q.1 → q.2 ≤ p.2 → Exact p q (q.2, p.2) := by
    intro p q hp hq hlon hle
    refine ⟨fun l hl => ⟨?_, meridian_le hp hq hlon hle hl⟩, arc_end hq, arc_start hp⟩
    have h := meridian_le (p := (q.1, -q.2)) (q := (p.1, -p.2)) ⟨by show -90 ≤ -q.2; linarith [hq.2], by show -q.2 ≤ 90; linarith [hq.1]⟩
      ⟨by show -90 ≤ -p.2; linarith [hp.2], by show -p.2 ≤ 90; linarith [hp.1]⟩ hlon.symm (by show -p.2 ≤ -q.2; linarith)
      ((mirror_arc q p l).1 (arc_symm hl))
    exact neg_le_neg_iff.1 h
  rcases le_total p.2 q.2 with h | h
  · rw [min_eq_left h, max_eq_right h]
    exact exact_symm (key q p hq hp hlon.symm h)
  · rw [min_eq_right h, max_eq_left h]
    exact key p q hp hq hlon h

/-! ### The southern half -/

theorem turned_south {d a b : ℝ} (hne : (Real.sin d * Real.cos b) ^ 2 + rise d a b ^ 2 ≠ 0) :
    turned (azim d a b) > 1 / 2 * Real.pi ↔ turned (azim d (-a) (-b)) < 1 / 2 * Real.pi := by
  have e : rise d (-a) (-b) = -rise d a b := by unfold rise; rw [Real.sin_neg, Real.sin_neg, Real.cos_neg, Real.cos_neg]; ring
  rw [down_iff, up_iff (by rw [e, Real.cos_neg, neg_sq]; exact hne), e]
  constructor <;> intro h <;> linarith

theorem sin_azim_mirror {d a b : ℝ} (hne : (Real.sin d * Real.cos b) ^ 2 + rise d a b ^ 2 ≠ 0) :
    Real.sin (azim d (-a) (-b)) = Real.sin (azim d a b) := by
  have e : rise d (-a) (-b) = -rise d a b := by unfold rise; rw [Real.sin_neg, Real.sin_neg, Real.cos_neg, Real.cos_neg]; ring
  have h1 := atan2_sin (Real.sin d * Real.cos b) (rise d a b)
  have h2 := atan2_sin (Real.sin d * Real.cos (-b)) (rise d (-a) (-b))
  rw [e, neg_sq, Real.cos_neg] at h2
  replace h2 := h2.trans h1.symm
  have hpos : 0 < Real.sqrt (rise d a b ^ 2 + (Real.sin d * Real.cos b) ^ 2) := by
    apply Real.sqrt_pos.2
    rw [add_comm]
    exact lt_of_le_of_ne (by positivity) (Ne.symm hne)
  have := mul_left_cancel₀ hpos.ne' h2
  have e2 : azim d (-a) (-b) = atan2 (Real.sin d * Real.cos b) (-rise d a b) := by
    rw [← e]; unfold azim rise; rw [Real.cos_neg b]
  rw [e2, this]
  rfl

theorem rad_neg (x : ℝ) : rad (-x) = -rad x := by unfold rad; ring

theorem bndlat_mirror {p q b : ℝ × ℝ} (p0 : p.2 < 0) (q0 : q.2 < 0) (hd : (q.1 - p.1) * Real.pi / 180 ≠ 0) (hne : 1 - gdot p q ^ 2 ≠ 0)
    (h : bndlat (p.1, -p.2) (q.1, -q.2) = some b) : bndlat p q = some (-b.2, -b.1) := by
  have G1 := gram (S := Real.sin ((q.1 - p.1) * Real.pi / 180)) (C := Real.cos ((q.1 - p.1) * Real.pi / 180)) (sq_cs (rad p.2)) (sq_cs (rad q.2)) (sq_cs _)
  have G2 := gram (S := Real.sin (-((q.1 - p.1) * Real.pi / 180))) (C := Real.cos (-((q.1 - p.1) * Real.pi / 180))) (sq_cs (rad q.2)) (sq_cs (rad p.2)) (sq_cs _)
  have n1 : (Real.sin ((q.1 - p.1) * Real.pi / 180) * Real.cos (rad q.2)) ^ 2 + rise ((q.1 - p.1) * Real.pi / 180) (rad p.2) (rad q.2) ^ 2 ≠ 0 := by
    unfold rise; rw [G1]; exact hne
  have n2 : (Real.sin (-((q.1 - p.1) * Real.pi / 180)) * Real.cos (rad p.2)) ^ 2 + rise (-((q.1 - p.1) * Real.pi / 180)) (rad q.2) (rad p.2) ^ 2 ≠ 0 := by
    have : Real.sin (rad q.2) * Real.sin (rad p.2) + Real.cos (rad q.2) * Real.cos (rad p.2) * Real.cos ((q.1 - p.1) * Real.pi / 180) = gdot p q := by
      unfold gdot; ring
    unfold rise; rw [G2, Real.cos_neg, this]; exact hne
  have t1 := turned_south n1
  have t2 := turned_south n2
  have s1 := sin_azim_mirror n1
  rw [← rad_neg p.2, ← rad_neg q.2] at t1 s1
  rw [← rad_neg p.2, ← rad_neg q.2] at t2
  have hc : Real.cos (rad (-p.2)) = Real.cos (rad p.2) := by rw [rad_neg, Real.cos_neg]
  unfold bndlat at h ⊢
  simp only at h ⊢
  rw [if_neg (by rintro ⟨h, -⟩; exact hd h), if_neg (by rw [fsign_north (by linarith), fsign_north (by linarith)]; rintro (h | h); exacts [hd h, h rfl]),
    if_pos (fsign_north (by linarith)), min_rad, max_rad] at h
  rw [if_neg (by rintro ⟨h, -⟩; exact hd h), if_neg (by rw [fsign_south p0, fsign_south q0]; rintro (h | h); exacts [hd h, h rfl]),
    if_neg (by rw [fsign_south p0]; decide), min_rad, max_rad]
  change some (min (-p.2) (-q.2), if turned (azim ((q.1 - p.1) * Real.pi / 180) (rad (-p.2)) (rad (-q.2))) < 1 / 2 * Real.pi ∧
    turned (azim (-((q.1 - p.1) * Real.pi / 180)) (rad (-q.2)) (rad (-p.2))) < 1 / 2 * Real.pi then
    Real.arccos |Real.sin (azim ((q.1 - p.1) * Real.pi / 180) (rad (-p.2)) (rad (-q.2))) * Real.cos (rad (-p.2))| * 180 / Real.pi
    else max (-p.2) (-q.2)) = some b at h
  change some (if turned (azim ((q.1 - p.1) * Real.pi / 180) (rad p.2) (rad q.2)) > 1 / 2 * Real.pi ∧
    turned (azim (-((q.1 - p.1) * Real.pi / 180)) (rad q.2) (rad p.2)) > 1 / 2 * Real.pi then
    -Real.arccos |Real.sin (azim ((q.1 - p.1) * Real.pi / 180) (rad p.2) (rad q.2)) * Real.cos (rad p.2)| * 180 / Real.pi
    else min p.2 q.2, max p.2 q.2) = _
  rw [s1, hc] at h
  have hb := (Option.some.inj h).symm
  rw [hb]
  by_cases hu : turned (azim ((q.1 - p.1) * Real.pi / 180) (rad p.2) (rad q.2)) > 1 / 2 * Real.pi ∧
    turned (azim (-((q.1 - p.1) * Real.pi / 180)) (rad q.2) (rad p.2)) > 1 / 2 * Real.pi
  · rw [if_pos hu, if_pos ⟨t1.1 hu.1, t2.1 hu.2⟩]
    dsimp only
    rw [min_neg_neg, neg_neg]
    congr 2
    ring
  · rw [if_neg hu, if_neg (fun hc => hu ⟨t1.2 hc.1, t2.2 hc.2⟩)]
    dsimp only
    rw [min_neg_neg, neg_neg, max_neg_neg, neg_neg]

theorem south {p q : ℝ × ℝ} (hp : Valid p) (hq : Valid q) (p0 : p.2 < 0) (q0 : q.2 < 0) (hd : (q.1 - p.1) * Real.pi / 180 ≠ 0)
    (hne : 1 - gdot p q ^ 2 ≠ 0) : ∃ b, bndlat p q = some b ∧ Exact p q b := by
  have hg : gdot (p.1, -p.2) (q.1, -q.2) = gdot p q := by
    unfold gdot
    simp only [rad_neg, Real.sin_neg, Real.cos_neg]
    ring
  obtain ⟨b, hb, he⟩ := north (p := (p.1, -p.2)) (q := (q.1, -q.2)) ⟨by show -90 ≤ -p.2; linarith [hp.2], by show -p.2 ≤ 90; linarith [hp.1]⟩
    ⟨by show -90 ≤ -q.2; linarith [hq.2], by show -q.2 ≤ 90; linarith [hq.1]⟩ (by show 0 ≤ -p.2; linarith) (by show 0 ≤ -q.2; linarith) hd (by rw [hg]; exact hne)
  exact ⟨_, bndlat_mirror p0 q0 hd hne hb, exact_mirror he⟩

/-! ### Theorems -/

theorem same_of_gdot {p q : ℝ × ℝ} (h : gdot p q = 1) : onSphere p = onSphere q := by
  have a1 := sq_cs (p.1 * Real.pi / 180)
  have a2 := sq_cs (p.2 * Real.pi / 180)
  have b1 := sq_cs (q.1 * Real.pi / 180)
  have b2 := sq_cs (q.2 * Real.pi / 180)
  have key : ((onSphere p).1 - (onSphere q).1) ^ 2 + ((onSphere p).2.1 - (onSphere q).2.1) ^ 2 + ((onSphere p).2.2 - (onSphere q).2.2) ^ 2 = 0 := by
    unfold gdot at h
    rw [cos_diff] at h
    simp only [rad] at h
    unfold onSphere
    simp only
    linear_combination Real.cos (p.2 * Real.pi / 180) ^ 2 * a1 + a2 + Real.cos (q.2 * Real.pi / 180) ^ 2 * b1 + b2 - 2 * h
  have k1 : ((onSphere p).1 - (onSphere q).1) ^ 2 = 0 := by nlinarith [sq_nonneg ((onSphere p).1 - (onSphere q).1), sq_nonneg ((onSphere p).2.1 - (onSphere q).2.1), sq_nonneg ((onSphere p).2.2 - (onSphere q).2.2)]
  have k2 : ((onSphere p).2.1 - (onSphere q).2.1) ^ 2 = 0 := by nlinarith [sq_nonneg ((onSphere p).1 - (onSphere q).1), sq_nonneg ((onSphere p).2.1 - (onSphere q).2.1), sq_nonneg ((onSphere p).2.2 - (onSphere q).2.2)]
  have k3 : ((onSphere p).2.2 - (onSphere q).2.2) ^ 2 = 0 := by nlinarith [sq_nonneg ((onSphere p).1 - (onSphere q).1), sq_nonneg ((onSphere p).2.1 - (onSphere q).2.1), sq_nonneg ((onSphere p).2.2 - (onSphere q).2.2)]
  have l1 := sub_eq_zero.1 (pow_eq_zero_iff two_ne_zero |>.1 k1)
  have l2 := sub_eq_zero.1 (pow_eq_zero_iff two_ne_zero |>.1 k2)
  have l3 := sub_eq_zero.1 (pow_eq_zero_iff two_ne_zero |>.1 k3)
  exact Prod.ext l1 (Prod.ext l2 l3)

theorem opposite_of_gdot {p q : ℝ × ℝ} (h : gdot p q = -1) : Opposite p q := by
  have a1 := sq_cs (p.1 * Real.pi / 180)
  have a2 := sq_cs (p.2 * Real.pi / 180)
  have b1 := sq_cs (q.1 * Real.pi / 180)
  have b2 := sq_cs (q.2 * Real.pi / 180)
  have key : ((onSphere p).1 + (onSphere q).1) ^ 2 + ((onSphere p).2.1 + (onSphere q).2.1) ^ 2 + ((onSphere p).2.2 + (onSphere q).2.2) ^ 2 = 0 := by
    unfold gdot at h
    rw [cos_diff] at h
    simp only [rad] at h
    unfold onSphere
    simp only
    linear_combination Real.cos (p.2 * Real.pi / 180) ^ 2 * a1 + a2 + Real.cos (q.2 * Real.pi / 180) ^ 2 * b1 + b2 + 2 * h
  have k1 : ((onSphere p).1 + (onSphere q).1) ^ 2 = 0 := by nlinarith [sq_nonneg ((onSphere p).1 + (onSphere q).1), sq_nonneg ((onSphere p).2.1 + (onSphere q).2.1), sq_nonneg ((onSphere p).2.2 + (onSphere q).2.2)]
  have k2 : ((onSphere p).2.1 + (onSphere q).2.1) ^ 2 = 0 := by nlinarith [sq_nonneg ((onSphere p).1 + (onSphere q).1), sq_nonneg ((onSphere p).2.1 + (onSphere q).2.1), sq_nonneg ((onSphere p).2.2 + (onSphere q).2.2)]
  have k3 : ((onSphere p).2.2 + (onSphere q).2.2) ^ 2 = 0 := by nlinarith [sq_nonneg ((onSphere p).1 + (onSphere q).1), sq_nonneg ((onSphere p).2.1 + (onSphere q).2.1), sq_nonneg ((onSphere p).2.2 + (onSphere q).2.2)]
  exact ⟨by linarith [pow_eq_zero_iff two_ne_zero |>.1 k1], by linarith [pow_eq_zero_iff two_ne_zero |>.1 k2], by linarith [pow_eq_zero_iff two_ne_zero |>.1 k3]⟩

/-- The segments for which the bounds are proved: two different places, not opposite each other, both in the same hemisphere, or on the same
meridian, or at most 90 degrees of longitude apart. -/
def Plain (p q : ℝ × ℝ) : Prop :=
  onSphere p ≠ onSphere q ∧ ¬Opposite p q ∧ ((0 ≤ p.2 ∧ 0 ≤ q.2) ∨ (p.2 < 0 ∧ q.2 < 0) ∨ p.1 = q.1 ∨ |q.1 - p.1| ≤ 90)

theorem cos_near {d : ℝ} (h : |d| ≤ 90) : 0 ≤ Real.cos (d * Real.pi / 180) := by
  have := abs_le.1 h
  exact cos_rad_nonneg ⟨by linarith, this.2⟩

/-- The latitudes computed for a segment bound the latitudes of its great-circle arc, and both are attained on it. -/
theorem C104_segment_partial (p q : ℝ × ℝ) (hp : Valid p) (hq : Valid q) (h : Plain p q) :
    ∃ lo hi, bndlat p q = some (lo, hi) ∧ (∀ l, ArcLat p q l → lo ≤ l ∧ l ≤ hi) ∧ ArcLat p q lo ∧ ArcLat p q hi := by
  have hpi := Real.pi_pos
  have hne : 1 - gdot p q ^ 2 ≠ 0 := by
    intro h0
    have : (gdot p q - 1) * (gdot p q + 1) = 0 := by linarith
    rcases mul_eq_zero.1 this with h1 | h1
    · exact h.1 (same_of_gdot (by linarith))
    · exact h.2.1 (opposite_of_gdot (by linarith))
  suffices hs : ∃ b, bndlat p q = some b ∧ Exact p q b by
    obtain ⟨b, hb, he⟩ := hs
    exact ⟨b.1, b.2, hb, he.1, he.2.1, he.2.2⟩
  by_cases hlon : p.1 = q.1
  · have hlat : rad p.2 ≠ rad q.2 := by
      intro hc
      apply h.1
      unfold onSphere
      unfold rad at hc
      rw [hlon, hc]
    refine ⟨(min p.2 q.2, max p.2 q.2), ?_, meridian hp hq hlon⟩
    unfold bndlat
    simp only
    rw [if_neg (fun hc => hlat hc.2), if_pos (Or.inl (by rw [hlon]; ring))]
  · have hd : (q.1 - p.1) * Real.pi / 180 ≠ 0 := by
      have : q.1 - p.1 ≠ 0 := sub_ne_zero.2 (Ne.symm hlon)
      positivity
    rcases lt_or_ge p.2 0 with p0 | p0 <;> rcases lt_or_ge q.2 0 with q0 | q0
    · exact south hp hq p0 q0 hd hne
    · have hC : 0 ≤ Real.cos ((p.1 - q.1) * Real.pi / 180) := by
        apply cos_near
        rcases h.2.2 with h | h | h | h
        · exact absurd h.1 (by linarith)
        · exact absurd h.2 (by linarith)
        · exact absurd h hlon
        · rw [abs_sub_comm]; exact h
      refine ⟨(p.2, q.2), ?_, exact_symm (crossing hq hp q0 p0.le hC)⟩
      unfold bndlat
      simp only
      rw [if_neg (fun hc => hd hc.1), if_pos (Or.inr (by rw [fsign_south p0, fsign_north q0]; decide)), min_eq_left (by linarith), max_eq_right (by linarith)]
    · have hC : 0 ≤ Real.cos ((q.1 - p.1) * Real.pi / 180) := by
        apply cos_near
        rcases h.2.2 with h | h | h | h
        · exact absurd h.2 (by linarith)
        · exact absurd h.1 (by linarith)
        · exact absurd h hlon
        · exact h
      refine ⟨(q.2, p.2), ?_, crossing hp hq p0 q0.le hC⟩
      unfold bndlat
      simp only
      rw [if_neg (fun hc => hd hc.1), if_pos (Or.inr (by rw [fsign_south q0, fsign_north p0]; decide)), min_eq_right (by linarith), max_eq_left (by linarith)]
    · exact north hp hq p0 q0 hd hne

/-- Consecutive vertices of a path. -/
def Consecutive (ps : List (ℝ × ℝ)) (p q : ℝ × ℝ) : Prop := ∃ a b, ps = a ++ p :: q :: b

/-- The vertices of the path of a line, or of a ring with its closing segment. -/
def path (ring : Bool) (ps : List (ℝ × ℝ)) : List (ℝ × ℝ) := if ring then ps ++ ps.head?.toList else ps

/-- The geometry reaches latitude `l` at a vertex or along a segment. -/
def Reaches (ring : Bool) (ps : List (ℝ × ℝ)) (l : ℝ) : Prop :=
  (∃ p ∈ ps, p.2 = l) ∨ ∃ p q, Consecutive (path ring ps) p q ∧ ArcLat p q l

theorem arc_self {p : ℝ × ℝ} (hp : Valid p) {l : ℝ} (h : ArcLat p p l) : l = p.2 := by
  have := (meridian hp hp rfl).1 l h
  simp only [min_self, max_self] at this
  linarith [this.1, this.2]

/-- Invariant of the loop of `bbox`: `done` is the path up to and with the previous vertex. -/
structure Inv (done : List (ℝ × ℝ)) (s : LatBox) : Prop where
  last : ∃ a, done = a ++ [s.prev]
  verts : ∀ p ∈ done, s.ymin ≤ p.2 ∧ p.2 ≤ s.ymax
  arcs : ∀ p q, Consecutive done p q → ∀ l, ArcLat p q l → s.ymin ≤ l ∧ l ≤ s.ymax
  lo : (∃ p ∈ done, p.2 = s.ymin) ∨ ∃ p q, Consecutive done p q ∧ ArcLat p q s.ymin
  hi : (∃ p ∈ done, p.2 = s.ymax) ∨ ∃ p q, Consecutive done p q ∧ ArcLat p q s.ymax

theorem consec_snoc {a : List (ℝ × ℝ)} {x y p q : ℝ × ℝ} : Consecutive (a ++ [x] ++ [y]) p q ↔ Consecutive (a ++ [x]) p q ∨ (p = x ∧ q = y) := by
  constructor
  · rintro ⟨u, v, h⟩
    rcases List.eq_nil_or_concat v with hv | ⟨v', z, hv⟩
    · subst hv
      have h2 : a ++ [x] ++ [y] = u ++ [p] ++ [q] := by rw [h]; simp
      have h3 := List.append_inj' h2 rfl
      have h4 := List.append_inj' h3.1 rfl
      right
      exact ⟨(by simpa using h4.2 : x = p).symm, (by simpa using h3.2 : y = q).symm⟩
    · subst hv
      have h2 : a ++ [x] ++ [y] = (u ++ p :: q :: v') ++ [z] := by rw [h]; simp
      have h3 := List.append_inj' h2 rfl
      exact Or.inl ⟨u, v', h3.1⟩
  · rintro (⟨u, v, h⟩ | ⟨rfl, rfl⟩)
    · exact ⟨u, v ++ [y], by rw [h]; simp⟩
    · exact ⟨a, [], by simp⟩

theorem inv_step {done : List (ℝ × ℝ)} {s : LatBox} (h : Inv done s) {q : ℝ × ℝ} (hs : Valid s.prev) (hq : Valid q)
    (hok : s.prev = q ∨ Plain s.prev q) : Inv (done ++ [q]) (latStep s q) := by
  obtain ⟨a, ha⟩ := h.last
  have hmem : s.prev ∈ done := by rw [ha]; simp
  have hcon : ∀ p r, Consecutive (done ++ [q]) p r ↔ Consecutive done p r ∨ (p = s.prev ∧ r = q) := by
    intro p r
    rw [ha]
    exact consec_snoc
  rcases hok with rfl | hpl
  · have e : latStep s s.prev = s := by
      unfold latStep
      have : bndlat s.prev s.prev = none := by
        unfold bndlat
        simp only
        rw [if_pos ⟨by ring, trivial⟩]
      rw [this]
    rw [e]
    refine ⟨⟨done, rfl⟩, fun p hp => ?_, fun p r hpr l hl => ?_, ?_, ?_⟩
    · rcases List.mem_append.1 hp with hp | hp
      · exact h.verts p hp
      · rw [List.mem_singleton.1 hp]; exact h.verts _ hmem
    · rcases (hcon p r).1 hpr with hpr | ⟨rfl, rfl⟩
      · exact h.arcs p r hpr l hl
      · rw [arc_self hs hl]; exact h.verts _ hmem
    · rcases h.lo with ⟨p, hp, e⟩ | ⟨p, r, hpr, e⟩
      · exact Or.inl ⟨p, List.mem_append_left _ hp, e⟩
      · exact Or.inr ⟨p, r, (hcon p r).2 (Or.inl hpr), e⟩
    · rcases h.hi with ⟨p, hp, e⟩ | ⟨p, r, hpr, e⟩
      · exact Or.inl ⟨p, List.mem_append_left _ hp, e⟩
      · exact Or.inr ⟨p, r, (hcon p r).2 (Or.inl hpr), e⟩
  · obtain ⟨lo, hi, hb, hbnd, hlo, hhi⟩ := C104_segment_partial s.prev q hs hq hpl
    have e : latStep s q = ⟨q, min s.ymin lo, max s.ymax hi⟩ := by
      unfold latStep
      rw [hb]
    rw [e]
    refine ⟨⟨done, rfl⟩, fun p hp => ?_, fun p r hpr l hl => ?_, ?_, ?_⟩
    · rcases List.mem_append.1 hp with hp | hp
      · exact ⟨(min_le_left _ _).trans (h.verts p hp).1, (h.verts p hp).2.trans (le_max_left _ _)⟩
      · rw [List.mem_singleton.1 hp]
        have := hbnd _ (arc_end hq)
        exact ⟨(min_le_right _ _).trans this.1, this.2.trans (le_max_right _ _)⟩
    · rcases (hcon p r).1 hpr with hpr | ⟨rfl, rfl⟩
      · have := h.arcs p r hpr l hl
        exact ⟨(min_le_left _ _).trans this.1, this.2.trans (le_max_left _ _)⟩
      · have := hbnd _ hl
        exact ⟨(min_le_right _ _).trans this.1, this.2.trans (le_max_right _ _)⟩
    · show (∃ p ∈ done ++ [q], p.2 = min s.ymin lo) ∨ ∃ p r, Consecutive (done ++ [q]) p r ∧ ArcLat p r (min s.ymin lo)
      rcases le_total s.ymin lo with hle | hle
      · rw [min_eq_left hle]
        rcases h.lo with ⟨p, hp, e⟩ | ⟨p, r, hpr, e⟩
        · exact Or.inl ⟨p, List.mem_append_left _ hp, e⟩
        · exact Or.inr ⟨p, r, (hcon p r).2 (Or.inl hpr), e⟩
      · rw [min_eq_right hle]
        exact Or.inr ⟨_, _, (hcon _ _).2 (Or.inr ⟨rfl, rfl⟩), hlo⟩
    · show (∃ p ∈ done ++ [q], p.2 = max s.ymax hi) ∨ ∃ p r, Consecutive (done ++ [q]) p r ∧ ArcLat p r (max s.ymax hi)
      rcases le_total hi s.ymax with hle | hle
      · rw [max_eq_left hle]
        rcases h.hi with ⟨p, hp, e⟩ | ⟨p, r, hpr, e⟩
        · exact Or.inl ⟨p, List.mem_append_left _ hp, e⟩
        · exact Or.inr ⟨p, r, (hcon p r).2 (Or.inl hpr), e⟩
      · rw [max_eq_right hle]
        exact Or.inr ⟨_, _, (hcon _ _).2 (Or.inr ⟨rfl, rfl⟩), hhi⟩

theorem inv_fold (todo : List (ℝ × ℝ)) : ∀ (done : List (ℝ × ℝ)) (s : LatBox), Inv done s → (∀ p ∈ done ++ todo, Valid p) →
    (∀ p q, Consecutive (done ++ todo) p q → p = q ∨ Plain p q) → Inv (done ++ todo) (todo.foldl latStep s) := by
  induction todo with
  | nil => intro done s h _ _; simpa using h
  | cons q todo ih =>
    intro done s h hv hok
    obtain ⟨a, ha⟩ := h.last
    have h1 : Inv (done ++ [q]) (latStep s q) := by
      refine inv_step h (hv _ ?_) (hv _ (by simp)) (hok _ _ ⟨a, todo, ?_⟩)
      · rw [ha]; simp
      · rw [ha]; simp
    have e : done ++ q :: todo = (done ++ [q]) ++ todo := by simp
    rw [e] at hv hok ⊢
    rw [List.foldl_cons]
    exact ih _ _ h1 hv hok

/-- The latitudes of the bounding box of a line or ring with geographical coordinates bound the latitudes of every vertex and of every point
of every segment, and are both reached. -/
theorem C104_box_partial (ring : Bool) (ps : List (ℝ × ℝ)) (hps : ps ≠ []) (hv : ∀ p ∈ ps, Valid p)
    (hok : ∀ p q, Consecutive (path ring ps) p q → p = q ∨ Plain p q) :
    ∃ lo hi, latBbox ring ps = some (lo, hi) ∧ (∀ l, Reaches ring ps l → lo ≤ l ∧ l ≤ hi) ∧ Reaches ring ps lo ∧ Reaches ring ps hi := by
  cases ps with
  | nil => exact absurd rfl hps
  | cons p rest =>
    have hpath : ∃ tail, path ring (p :: rest) = p :: tail ∧ (if ring then (p :: rest) ++ [p] else p :: rest) = p :: tail ∧
        (∀ x ∈ p :: tail, x ∈ p :: rest) ∧ (∀ x ∈ p :: rest, x ∈ p :: tail) := by
      cases ring
      · exact ⟨rest, rfl, rfl, fun x hx => hx, fun x hx => hx⟩
      · refine ⟨rest ++ [p], rfl, rfl, fun x hx => ?_, fun x hx => ?_⟩
        · simp only [List.mem_cons, List.mem_append, List.not_mem_nil, or_false] at hx ⊢
          tauto
        · simp only [List.mem_cons, List.mem_append, List.not_mem_nil, or_false] at hx ⊢
          tauto
    obtain ⟨tail, e1, e2, m1, m2⟩ := hpath
    have hbb : latBbox ring (p :: rest) = some (((p :: tail).foldl latStep ⟨p, p.2, p.2⟩).ymin, ((p :: tail).foldl latStep ⟨p, p.2, p.2⟩).ymax) := by
      unfold latBbox
      simp only
      rw [e2]
    have hinit : Inv [p] (latStep ⟨p, p.2, p.2⟩ p) := by
      have e : latStep ⟨p, p.2, p.2⟩ p = ⟨p, p.2, p.2⟩ := by
        unfold latStep
        have : bndlat p p = none := by
          unfold bndlat
          simp only
          rw [if_pos ⟨by ring, trivial⟩]
        simp only
        rw [this]
      rw [e]
      refine ⟨⟨[], rfl⟩, fun x hx => ?_, fun x y hxy => ?_, Or.inl ⟨p, by simp, rfl⟩, Or.inl ⟨p, by simp, rfl⟩⟩
      · rw [List.mem_singleton.1 hx]; exact ⟨le_rfl, le_rfl⟩
      · obtain ⟨a, b, h⟩ := hxy
        have := congrArg List.length h
        simp at this
        omega
    rw [e1] at hok
    have H := inv_fold tail [p] _ hinit (fun x hx => hv x (m1 x hx)) hok
    rw [← List.foldl_cons] at H
    refine ⟨_, _, hbb, fun l hl => ?_, ?_, ?_⟩
    · rcases hl with ⟨x, hx, rfl⟩ | ⟨x, y, hxy, hl⟩
      · exact H.verts x (m2 x hx)
      · rw [e1] at hxy
        exact H.arcs x y hxy l hl
    · rcases H.lo with ⟨x, hx, e⟩ | ⟨x, y, hxy, e⟩
      · exact Or.inl ⟨x, m1 x hx, e⟩
      · exact Or.inr ⟨x, y, by rw [e1]; exact hxy, e⟩
    · rcases H.hi with ⟨x, hx, e⟩ | ⟨x, y, hxy, e⟩
      · exact Or.inl ⟨x, m1 x hx, e⟩
      · exact Or.inr ⟨x, y, by rw [e1]; exact hxy, e⟩

/-! ### A segment that crosses the equator and passes its peak -/

theorem cos150 : Real.cos ((150 - 0) * Real.pi / 180) = -(Real.sqrt 3 / 2) := by
  rw [show (150 - 0) * Real.pi / 180 = Real.pi - Real.pi / 6 by ring, Real.cos_pi_sub, Real.cos_pi_div_six]

/-- The segment from 30 degrees south to 60 degrees north and 150 degrees further east goes north of its northern end, but the box ends there. -/
theorem C104_violated_crossing : ∃ p q : ℝ × ℝ, Valid p ∧ Valid q ∧ ¬Opposite p q ∧ |q.1 - p.1| < 180 ∧
    ∃ lo hi l, bndlat p q = some (lo, hi) ∧ latBbox false [p, q] = some (lo, hi) ∧ ArcLat p q l ∧ hi < l := by
  have h3 : Real.sqrt 3 ^ 2 = 3 := Real.sq_sqrt (by norm_num)
  have h30 := Real.sqrt_nonneg (3 : ℝ)
  have hl3 : Real.sqrt 3 < 7 / 4 := by
    rw [Real.sqrt_lt' (by norm_num)]; norm_num
  have hg3 : (17 : ℝ) / 10 < Real.sqrt 3 := by
    rw [Real.lt_sqrt (by norm_num)]; norm_num
  have s30 : Real.sin (rad (-30)) = -(1 / 2) := by
    rw [show rad (-30) = -(Real.pi / 6) by unfold rad; ring, Real.sin_neg, Real.sin_pi_div_six]
  have c30 : Real.cos (rad (-30)) = Real.sqrt 3 / 2 := by
    rw [show rad (-30) = -(Real.pi / 6) by unfold rad; ring, Real.cos_neg, Real.cos_pi_div_six]
  have s60 : Real.sin (rad 60) = Real.sqrt 3 / 2 := by
    rw [show rad 60 = Real.pi / 3 by unfold rad; ring, Real.sin_pi_div_three]
  have c60 : Real.cos (rad 60) = 1 / 2 := by
    rw [show rad 60 = Real.pi / 3 by unfold rad; ring, Real.cos_pi_div_three]
  have hg : gdot ((0 : ℝ), (-30 : ℝ)) (150, 60) = -(Real.sqrt 3 / 4) - 3 / 8 := by
    unfold gdot
    simp only
    rw [s30, c30, s60, c60, cos150]
    linear_combination (-(1 / 8 : ℝ)) * h3
  have vp : Valid ((0 : ℝ), (-30 : ℝ)) := ⟨by norm_num, by norm_num⟩
  have vq : Valid ((150 : ℝ), (60 : ℝ)) := ⟨by norm_num, by norm_num⟩
  have hb : bndlat (0, -30) (150, 60) = some (-30, 60) := by
    unfold bndlat
    simp only
    have hd : ((150 : ℝ) - 0) * Real.pi / 180 ≠ 0 := by have := Real.pi_pos; positivity
    rw [if_neg (fun hc => hd hc.1), if_pos (Or.inr (by rw [fsign_south (by norm_num), fsign_north (by norm_num)]; decide)), min_eq_left (by norm_num), max_eq_right (by norm_num)]
  have hb0 : bndlat (0, -30) (0, -30) = none := by
    unfold bndlat
    simp only
    rw [if_pos ⟨by ring, trivial⟩]
  -- the point in the direction half of the first plus the second
  have hnn : (0 : ℝ) < 7 / 8 - Real.sqrt 3 / 4 := by linarith
  have hw1 : (-(1 / 4) + Real.sqrt 3 / 2) / Real.sqrt (7 / 8 - Real.sqrt 3 / 4) ≤ 1 := by
    rw [div_le_one (Real.sqrt_pos.2 hnn)]
    apply Real.le_sqrt_of_sq_le
    nlinarith
  have hw0 : Real.sqrt 3 / 2 < (-(1 / 4) + Real.sqrt 3 / 2) / Real.sqrt (7 / 8 - Real.sqrt 3 / 4) := by
    rw [lt_div_iff₀ (Real.sqrt_pos.2 hnn)]
    have hsq : (Real.sqrt 3 / 2 * Real.sqrt (7 / 8 - Real.sqrt 3 / 4)) ^ 2 < (-(1 / 4) + Real.sqrt 3 / 2) ^ 2 := by
      rw [mul_pow, Real.sq_sqrt hnn.le]
      nlinarith
    exact lt_of_pow_lt_pow_left₀ 2 (by linarith) hsq
  set w := (-(1 / 4) + Real.sqrt 3 / 2) / Real.sqrt (7 / 8 - Real.sqrt 3 / 4) with hw
  have hlat : -90 ≤ Real.arcsin w * 180 / Real.pi ∧ Real.arcsin w * 180 / Real.pi ≤ 90 := by
    have hpi := Real.pi_pos
    have a1 := Real.neg_pi_div_two_le_arcsin w
    have a2 := Real.arcsin_le_pi_div_two w
    constructor
    · rw [le_div_iff₀ hpi]; linarith
    · rw [div_le_iff₀ hpi]; linarith
  have hsin : Real.sin (rad (Real.arcsin w * 180 / Real.pi)) = w := by
    rw [deg_rad, Real.sin_arcsin (by linarith) hw1]
  refine ⟨(0, -30), (150, 60), vp, vq, ?_, ?_, -30, 60, Real.arcsin w * 180 / Real.pi, hb, ?_, ?_, ?_⟩
  · rintro ⟨-, -, h⟩
    unfold onSphere at h
    simp only at h
    change Real.sin (rad (-30)) = -Real.sin (rad 60) at h
    rw [s30, s60] at h
    linarith
  · rw [abs_of_nonneg] <;> norm_num
  · have e1 : latStep ⟨((0 : ℝ), (-30 : ℝ)), -30, -30⟩ (0, -30) = ⟨(0, -30), -30, -30⟩ := by
      unfold latStep; simp only; rw [hb0]
    have e2 : latStep ⟨((0 : ℝ), (-30 : ℝ)), -30, -30⟩ (150, 60) = ⟨(150, 60), -30, 60⟩ := by
      unfold latStep; simp only; rw [hb]; simp only [min_self]; rw [max_eq_right (by norm_num)]
    unfold latBbox
    simp only [List.foldl_cons, List.foldl_nil, Bool.false_eq_true, if_false]
    rw [e1, e2]
  · refine (arc_iff _ _ _).2 ⟨hlat.1, hlat.2, 1 / 2, 1, Real.sqrt (7 / 8 - Real.sqrt 3 / 4), by norm_num, by norm_num, Real.sqrt_pos.2 hnn, ?_, ?_⟩
    · rw [Real.sq_sqrt hnn.le, hg]; ring
    · rw [hsin, hw]
      simp only
      rw [s30, s60, mul_div_cancel₀ _ (Real.sqrt_pos.2 hnn).ne']
      ring
  · by_contra hc
    push Not at hc
    have := (sin_rad_le hlat ⟨by norm_num, by norm_num⟩).2 hc
    rw [hsin, s60] at this
    linarith

/-- The hypotheses of the theorems hold for a segment along the parallel of 45 degrees north, whose peak is north of both ends. -/
example : Valid (0, 45) ∧ Valid (90, 45) ∧ Plain (0, 45) (90, 45) := by
  refine ⟨⟨by norm_num, by norm_num⟩, ⟨by norm_num, by norm_num⟩, ?_, ?_, Or.inl ⟨by norm_num, by norm_num⟩⟩
  · intro h
    have h1 := congrArg Prod.fst h
    unfold onSphere at h1
    simp only at h1
    rw [show (90 : ℝ) * Real.pi / 180 = Real.pi / 2 by ring, Real.cos_pi_div_two, show (45 : ℝ) * Real.pi / 180 = Real.pi / 4 by ring,
      Real.cos_pi_div_four, zero_mul, zero_div, Real.cos_zero, mul_one, mul_zero] at h1
    have := Real.sqrt_pos.2 (show (0 : ℝ) < 2 by norm_num)
    linarith
  · rintro ⟨-, -, h⟩
    unfold onSphere at h
    simp only at h
    rw [show (45 : ℝ) * Real.pi / 180 = Real.pi / 4 by ring, Real.sin_pi_div_four] at h
    have := Real.sqrt_pos.2 (show (0 : ℝ) < 2 by norm_num)
    linarith

end Karta.Geod.LatBound
