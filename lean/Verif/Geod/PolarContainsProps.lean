import Verif.Geod.PolarContains

/-!
# C136: containment in polygons around a pole
-/

namespace Karta.Geod.Polar
open Karta Karta.Geod

/-! ## Specification -/

/-- The sides of a ring, as pairs of vertices; the closing side last. -/
def sides (ring : List LL) : List (LL × LL) := ring.zip (ring.rotate 1)

/-- The short rotation, in degrees, from the direction in which `p` sees `v` to the direction in which it sees `w`. -/
noncomputable def turn (az : LL → LL → ℝ) (p v w : LL) : ℝ := Sphere.reduceDeg (az p w - az p v)

/-- By how much somebody at `p` turns who follows a point going once around the ring.  The ring goes around `p` exactly
when this is not zero. -/
noncomputable def revolution (az : LL → LL → ℝ) (p : LL) (ring : List LL) : ℝ :=
  ((sides ring).map fun s => turn az p s.1 s.2).sum

/-- The compass reading, from 0 to 360, of the direction in which `p` sees `v`. -/
noncomputable def compass (az : LL → LL → ℝ) (p v : LL) : ℝ := pyModR (az p v) 360

/-- Seen from `p`, the side passes due north clockwise: the reading falls by more than half a turn. -/
def NorthCW (az : LL → LL → ℝ) (p : LL) (s : LL × LL) : Prop := compass az p s.2 - compass az p s.1 < -180

/-- Seen from `p`, the side passes due north counterclockwise: the reading rises by more than half a turn. -/
def NorthCCW (az : LL → LL → ℝ) (p : LL) (s : LL × LL) : Prop := 180 < compass az p s.2 - compass az p s.1

/-- No side is seen under exactly half a turn. -/
def NoHalf (az : LL → LL → ℝ) (p : LL) (ring : List LL) : Prop :=
  ∀ s ∈ sides ring, compass az p s.2 - compass az p s.1 ≠ 180 ∧ compass az p s.2 - compass az p s.1 ≠ -180

/-! ## Proofs -/

theorem bearing_eq (az : LL → LL → ℝ) (p v : LL) : bearing az p v = compass az p v := by
  unfold bearing compass
  have := pyModR_add (az p v) (m := 360) (by norm_num) 1
  rw [← this]
  norm_num

theorem compass_mem (az : LL → LL → ℝ) (p v : LL) : 0 ≤ compass az p v ∧ compass az p v < 360 :=
  pyModR_mem _ (by norm_num)

/-- Pairs of consecutive elements of `v :: l`. -/
def steps : LL → List LL → List (LL × LL)
  | _, [] => []
  | v, w :: l => (v, w) :: steps w l

theorem zip_steps (v : LL) (l : List LL) (x : LL) : (v :: l).zip (l ++ [x]) = steps v (l ++ [x]) := by
  induction l generalizing v with
  | nil => rfl
  | cons w l ih =>
    rw [List.cons_append, List.zip_cons_cons, ih w]
    rfl

theorem sides_cons (v : LL) (l : List LL) : sides (v :: l) = steps v (l ++ [v]) := by
  unfold sides
  rw [List.rotate_cons_succ, List.rotate_zero, zip_steps]

open Classical in
theorem azStep_eq (az : LL → LL → ℝ) (p v w : LL) :
    azStep (compass az p v) (compass az p w)
      = (compass az p w - compass az p v) + 360 * (if NorthCW az p (v, w) then 1 else 0) := by
  unfold azStep NorthCW
  by_cases h : compass az p w - compass az p v < -180
  · rw [if_pos h, if_pos h]; ring
  · rw [if_neg h, if_neg h, if_neg (by intro h2; apply h; linarith)]; ring

open Classical in
/-- Number of sides passing north clockwise. -/
noncomputable def cwCount (az : LL → LL → ℝ) (p : LL) (l : List (LL × LL)) : ℕ :=
  l.countP fun s => decide (NorthCW az p s)

open Classical in
/-- Number of sides passing north counterclockwise. -/
noncomputable def ccwCount (az : LL → LL → ℝ) (p : LL) (l : List (LL × LL)) : ℕ :=
  l.countP fun s => decide (NorthCCW az p s)

theorem azLoop_eq (az : LL → LL → ℝ) (p x : LL) (l : List LL) (v : LL) (s : ℝ) :
    azLoop (bearing az p) (bearing az p v) s (l ++ [x])
      = s + (compass az p x - compass az p v) + 360 * (cwCount az p (steps v (l ++ [x])) : ℝ) := by
  induction l generalizing v s with
  | nil =>
    show s + azStep (bearing az p v) (bearing az p x) = _
    rw [bearing_eq, bearing_eq, azStep_eq]
    unfold cwCount steps steps
    by_cases h : NorthCW az p (v, x) <;> simp [h] <;> ring
  | cons w l ih =>
    show azLoop (bearing az p) (bearing az p w) (s + azStep (bearing az p v) (bearing az p w)) (l ++ [x]) = _
    rw [ih w, bearing_eq, bearing_eq, azStep_eq]
    have hs : steps v (w :: l ++ [x]) = (v, w) :: steps w (l ++ [x]) := rfl
    rw [hs]
    unfold cwCount
    rw [List.countP_cons]
    by_cases h : NorthCW az p (v, w) <;> simp [h] <;> ring

theorem containsProj_iff (az : LL → LL → ℝ) (p : LL) (ring : List LL) (hne : ring ≠ []) :
    containsProj az p ring = true ↔ cwCount az p (sides ring) = 0 := by
  cases ring with
  | nil => exact absurd rfl hne
  | cons v l =>
    unfold containsProj
    dsimp only
    rw [azLoop_eq, sides_cons]
    generalize cwCount az p (steps v (l ++ [v])) = n
    have e : (0 : ℝ) + (compass az p v - compass az p v) + 360 * (n : ℝ) = 360 * n := by ring
    rw [e]
    by_cases h : n = 0
    · subst h
      rw [if_neg (by norm_num)]
      simp
    · have : (1 : ℝ) ≤ n := by exact_mod_cast Nat.one_le_iff_ne_zero.mpr h
      rw [if_pos (by rw [abs_of_nonneg (by linarith)]; norm_num; linarith)]
      simp [h]

/-- **C136, exact behaviour.**  `contains_proj` answers True exactly when no side passes due north of the point
clockwise, whether or not the ring goes around the point. -/
theorem C136_exact_partial (az : LL → LL → ℝ) (p : LL) (ring : List LL) (hne : ring ≠ []) :
    containsProj az p ring = true ↔ ∀ s ∈ sides ring, ¬ NorthCW az p s := by
  rw [containsProj_iff az p ring hne]
  unfold cwCount
  rw [List.countP_eq_zero]
  simp

theorem reduce_of_mem {x : ℝ} (h1 : -180 ≤ x) (h2 : x < 180) : Sphere.reduceDeg x = x := by
  unfold Sphere.reduceDeg
  rw [pyModR_self (by linarith) (by linarith)]
  ring

theorem reduce_add (x : ℝ) (k : ℤ) : Sphere.reduceDeg (x + 360 * k) = Sphere.reduceDeg x := by
  unfold Sphere.reduceDeg
  rw [show x + 360 * (k : ℝ) + 180 = (x + 180) + 360 * k by ring, pyModR_add _ (by norm_num)]

open Classical in
theorem turn_eq (az : LL → LL → ℝ) (p v w : LL)
    (h1 : compass az p w - compass az p v ≠ 180) (h2 : compass az p w - compass az p v ≠ -180) :
    turn az p v w = (compass az p w - compass az p v) + 360 * (if NorthCW az p (v, w) then 1 else 0)
      - 360 * (if NorthCCW az p (v, w) then 1 else 0) := by
  obtain ⟨i, hi⟩ := pyModR_cong (az p v) 360
  obtain ⟨j, hj⟩ := pyModR_cong (az p w) 360
  have mv := compass_mem az p v
  have mw := compass_mem az p w
  have e : az p w - az p v = (compass az p w - compass az p v) + 360 * ((i - j : ℤ) : ℝ) := by
    unfold compass; rw [hi, hj]; push_cast; ring
  unfold turn
  rw [e, reduce_add]
  unfold NorthCW NorthCCW
  dsimp only
  generalize hd : compass az p w - compass az p v = d at *
  by_cases hc : d < -180
  · rw [if_pos hc, if_neg (by linarith), show d = (d + 360) + 360 * ((-1 : ℤ) : ℝ) by push_cast; ring, reduce_add,
      reduce_of_mem (by linarith) (by linarith)]
    push_cast; ring
  · by_cases hw : 180 < d
    · rw [if_neg hc, if_pos hw, show d = (d - 360) + 360 * ((1 : ℤ) : ℝ) by push_cast; ring, reduce_add,
        reduce_of_mem (by linarith) (by linarith)]
      push_cast; ring
    · have g1 : d < 180 := lt_of_le_of_ne (not_lt.mp hw) h1
      rw [if_neg hc, if_neg hw, reduce_of_mem (by linarith [not_lt.mp hc]) g1]
      ring

theorem turns_eq (az : LL → LL → ℝ) (p x : LL) (l : List LL) (v : LL)
    (h : ∀ s ∈ steps v (l ++ [x]), compass az p s.2 - compass az p s.1 ≠ 180 ∧
      compass az p s.2 - compass az p s.1 ≠ -180) :
    ((steps v (l ++ [x])).map fun s => turn az p s.1 s.2).sum
      = (compass az p x - compass az p v) + 360 * (cwCount az p (steps v (l ++ [x])) : ℝ)
        - 360 * (ccwCount az p (steps v (l ++ [x])) : ℝ) := by
  induction l generalizing v with
  | nil =>
    have h0 := h (v, x) (by simp [steps])
    show ([turn az p v x] : List ℝ).sum = _
    rw [List.sum_singleton, turn_eq az p v x h0.1 h0.2]
    have hs : steps v ([] ++ [x]) = [(v, x)] := rfl
    rw [hs]
    unfold cwCount ccwCount
    by_cases h1 : NorthCW az p (v, x) <;> by_cases h2 : NorthCCW az p (v, x) <;> simp [h1, h2]
  | cons w l ih =>
    have hs : steps v (w :: l ++ [x]) = (v, w) :: steps w (l ++ [x]) := rfl
    rw [hs] at h ⊢
    have h0 := h (v, w) (by simp)
    rw [List.map_cons, List.sum_cons, ih w (fun s hs => h s (by simp [hs])), turn_eq az p v w h0.1 h0.2]
    unfold cwCount ccwCount
    rw [List.countP_cons, List.countP_cons]
    by_cases h1 : NorthCW az p (v, w) <;> by_cases h2 : NorthCCW az p (v, w) <;> simp [h1, h2] <;> ring

theorem revolution_eq (az : LL → LL → ℝ) (p : LL) (ring : List LL) (hh : NoHalf az p ring) :
    revolution az p ring = 360 * ((cwCount az p (sides ring) : ℝ) - ccwCount az p (sides ring)) := by
  cases ring with
  | nil => simp [revolution, sides, cwCount, ccwCount]
  | cons v l =>
    unfold revolution
    unfold NoHalf at hh
    rw [sides_cons] at *
    rw [turns_eq az p v l v hh]
    ring

/-- **C136 (part).**  When no side is seen under exactly half a turn, the answer of `contains_proj` is right exactly in two
cases: seen from the point, the ring passes due north counterclockwise and never clockwise; or the ring does not go around
the point but passes due north clockwise somewhere (and hence also back).  Missing: the other rings; see the theorems
below. -/
theorem C136_right_partial (az : LL → LL → ℝ) (p : LL) (ring : List LL) (hne : ring ≠ []) (hh : NoHalf az p ring) :
    (containsProj az p ring = true ↔ revolution az p ring ≠ 0) ↔
      (((∀ s ∈ sides ring, ¬ NorthCW az p s) ∧ ∃ s ∈ sides ring, NorthCCW az p s) ∨
        (revolution az p ring = 0 ∧ ∃ s ∈ sides ring, NorthCW az p s)) := by
  rw [containsProj_iff az p ring hne]
  have hz : (∀ s ∈ sides ring, ¬ NorthCW az p s) ↔ cwCount az p (sides ring) = 0 := by
    unfold cwCount
    rw [List.countP_eq_zero]
    simp
  have hz' : (∃ s ∈ sides ring, NorthCW az p s) ↔ cwCount az p (sides ring) ≠ 0 := by
    rw [← not_iff_not, not_not, ← hz]; push Not; rfl
  have hw : (∃ s ∈ sides ring, NorthCCW az p s) ↔ ccwCount az p (sides ring) ≠ 0 := by
    have : (∀ s ∈ sides ring, ¬ NorthCCW az p s) ↔ ccwCount az p (sides ring) = 0 := by
      unfold ccwCount
      rw [List.countP_eq_zero]
      simp
    rw [← not_iff_not, not_not, ← this]; push Not; rfl
  rw [hz, hz', hw]
  have hr : revolution az p ring = 0 ↔ cwCount az p (sides ring) = ccwCount az p (sides ring) := by
    rw [revolution_eq az p ring hh]
    constructor
    · intro h
      have : (cwCount az p (sides ring) : ℝ) = ccwCount az p (sides ring) := by linarith
      exact_mod_cast this
    · intro h; rw [h]; ring
  rw [ne_eq, hr]
  omega

/-! ## Rings on the sphere -/

theorem compass_sphere (p v : LL) : compass sphereAz p v = pyModR (atan2 (Real.cos (rad v.2) * Real.sin (rad (v.1 - p.1)))
    (Real.cos (rad p.2) * Real.sin (rad v.2) - Real.sin (rad p.2) * Real.cos (rad v.2) * Real.cos (rad (v.1 - p.1)))
      * 180 / Real.pi) 360 := by
  unfold compass sphereAz Sphere.reduceDeg
  generalize atan2 _ _ * 180 / Real.pi = t
  obtain ⟨k, hk⟩ := pyModR_cong (t + 180) 360
  rw [hk, show t + 180 + 360 * (k : ℝ) - 180 = t + 360 * k by ring, pyModR_add _ (by norm_num)]

theorem deg_lt {t c : ℝ} (h : t < c / 180 * Real.pi) : t * 180 / Real.pi < c := by
  rw [div_lt_iff₀ Real.pi_pos]; linarith

theorem lt_deg {t c : ℝ} (h : c / 180 * Real.pi < t) : c < t * 180 / Real.pi := by
  rw [lt_div_iff₀ Real.pi_pos]; linarith

theorem rad_sub (a b : ℚ) : rad (a - b) = rad a - rad b := by unfold rad; push_cast; ring

theorem rad_add (a b : ℚ) : rad (a + b) = rad a + rad b := by unfold rad; push_cast; ring

theorem rad_neg (a : ℚ) : rad (-a) = -rad a := by unfold rad; push_cast; ring

theorem rad_lt {a b : ℚ} (h : a < b) : rad a < rad b := by
  unfold rad
  have : (a : ℝ) < b := by exact_mod_cast h
  have := Real.pi_pos
  nlinarith

theorem rad_90 : rad 90 = Real.pi / 2 := by unfold rad; push_cast; ring
theorem rad_180 : rad 180 = Real.pi := by unfold rad; push_cast; ring
theorem rad_zero : rad 0 = 0 := by unfold rad; push_cast; ring

theorem sin_rad_pos {a : ℚ} (h1 : 0 < a) (h2 : a < 180) : 0 < Real.sin (rad a) := by
  apply Real.sin_pos_of_pos_of_lt_pi
  · rw [← rad_zero]; exact rad_lt h1
  · rw [← rad_180]; exact rad_lt h2

theorem sin_rad_neg {a : ℚ} (h1 : a < 0) (h2 : -180 < a) : Real.sin (rad a) < 0 := by
  have := sin_rad_pos (a := -a) (by linarith) (by linarith)
  rw [rad_neg, Real.sin_neg] at this
  linarith

theorem cos_rad_pos {a : ℚ} (h1 : -90 < a) (h2 : a < 90) : 0 < Real.cos (rad a) := by
  apply Real.cos_pos_of_mem_Ioo
  constructor
  · rw [← rad_90, ← rad_neg]; exact rad_lt h1
  · rw [← rad_90]; exact rad_lt h2

theorem atan2_pos_axis {x : ℝ} (h : 0 < x) : atan2 0 x = 0 := by
  unfold atan2
  exact Complex.arg_ofReal_of_nonneg h.le

theorem atan2_neg_axis {x : ℝ} (h : x < 0) : atan2 0 x = Real.pi := by
  unfold atan2
  exact Complex.arg_ofReal_of_neg h

theorem atan2_quad1 {y x : ℝ} (hy : 0 < y) (hx : 0 < x) : 0 < atan2 y x ∧ atan2 y x < Real.pi / 2 := by
  have h1 : |atan2 y x| < Real.pi / 2 := Complex.abs_arg_lt_pi_div_two_iff.mpr (Or.inl hx)
  have h2 : 0 ≤ atan2 y x := Complex.arg_nonneg_iff.mpr hy.le
  have h3 := atan2_sin y x
  refine ⟨lt_of_le_of_ne h2 ?_, (abs_lt.mp h1).2⟩
  intro h
  rw [← h] at h3
  simp at h3
  exact hy.ne h3

theorem atan2_neg_y {y x : ℝ} (hy : 0 < y) : atan2 (-y) x = -atan2 y x := by
  unfold atan2
  have h : (⟨x, -y⟩ : ℂ) = (starRingEnd ℂ) ⟨x, y⟩ := rfl
  rw [h, Complex.arg_conj, if_neg]
  intro h2
  rw [Complex.arg_eq_pi_iff] at h2
  exact hy.ne' h2.2

theorem atan2_neg_x {y x : ℝ} (hy : 0 < y) : atan2 y (-x) = Real.pi - atan2 y x := by
  have h1 := atan2_cos y x
  have h2 := atan2_sin y x
  have hr : 0 < Real.sqrt (x ^ 2 + y ^ 2) := Real.sqrt_pos.mpr (by positivity)
  have m := atan2_mem y x
  have hn : 0 ≤ atan2 y x := Complex.arg_nonneg_iff.mpr hy.le
  have := atan2_polar (r := Real.sqrt (x ^ 2 + y ^ 2)) (θ := Real.pi - atan2 y x) hr (by linarith [m.2, Real.pi_pos]) (by linarith)
  rw [Real.sin_pi_sub, Real.cos_pi_sub, h2, mul_neg, h1] at this
  exact this

theorem atan2_quad2 {y x : ℝ} (hy : 0 < y) (hx : x < 0) : Real.pi / 2 < atan2 y x ∧ atan2 y x < Real.pi := by
  have h := atan2_neg_x (y := y) (x := -x) hy
  rw [neg_neg] at h
  have := atan2_quad1 hy (neg_pos.mpr hx)
  rw [h]
  constructor <;> linarith [this.1, this.2]

/-- Compass readings of the four points at latitude `b` on the meridians 0, 90, 180 and -90, seen from latitude `a` on
meridian 0. -/
theorem see_zero (a b : ℚ) (ha : -90 < a ∧ a < 90) (hb : -90 < b ∧ b < 90) :
    (a < b → compass sphereAz (0, a) (0, b) = 0) ∧ (b < a → compass sphereAz (0, a) (0, b) = 180) := by
  have e : Real.cos (rad a) * Real.sin (rad b) - Real.sin (rad a) * Real.cos (rad b) * Real.cos (rad (0 - 0))
      = Real.sin (rad (b - a)) := by
    rw [rad_sub 0 0, sub_self, Real.cos_zero, rad_sub, Real.sin_sub]; ring
  have e0 : Real.cos (rad b) * Real.sin (rad (0 - 0)) = 0 := by rw [rad_sub, sub_self, Real.sin_zero, mul_zero]
  have hpi := Real.pi_pos
  constructor
  · intro h
    rw [compass_sphere]
    dsimp only
    rw [e, e0, atan2_pos_axis (sin_rad_pos (by linarith) (by linarith [ha.1, hb.2])), pyModR_self (by simp) (by simp)]
    simp
  · intro h
    rw [compass_sphere]
    dsimp only
    rw [e, e0, atan2_neg_axis (sin_rad_neg (by linarith) (by linarith [ha.2, hb.1]))]
    have : Real.pi * 180 / Real.pi = 180 := by field_simp
    rw [this, pyModR_self (by norm_num) (by norm_num)]

theorem see_180 (a b : ℚ) (ha : -90 < a ∧ a < 90) (hb : -90 < b ∧ b < 90) :
    (0 < a + b → compass sphereAz (0, a) (180, b) = 0) ∧ (a + b < 0 → compass sphereAz (0, a) (180, b) = 180) := by
  have e : Real.cos (rad a) * Real.sin (rad b) - Real.sin (rad a) * Real.cos (rad b) * Real.cos (rad (180 - 0))
      = Real.sin (rad (a + b)) := by
    rw [sub_zero, rad_180, Real.cos_pi, rad_add, Real.sin_add]; ring
  have e0 : Real.cos (rad b) * Real.sin (rad (180 - 0)) = 0 := by rw [sub_zero, rad_180, Real.sin_pi, mul_zero]
  have hpi := Real.pi_pos
  constructor
  · intro h
    rw [compass_sphere]
    dsimp only
    rw [e, e0, atan2_pos_axis (sin_rad_pos (by linarith) (by linarith [ha.2, hb.2])), pyModR_self (by simp) (by simp)]
    simp
  · intro h
    rw [compass_sphere]
    dsimp only
    rw [e, e0, atan2_neg_axis (sin_rad_neg (by linarith) (by linarith [ha.1, hb.1]))]
    have : Real.pi * 180 / Real.pi = 180 := by field_simp
    rw [this, pyModR_self (by norm_num) (by norm_num)]

theorem see_90 (a b : ℚ) (ha : -90 < a ∧ a < 90) (hb : -90 < b ∧ b < 90) :
    (0 < b → 0 < compass sphereAz (0, a) (90, b) ∧ compass sphereAz (0, a) (90, b) < 90) ∧
      (b < 0 → 90 < compass sphereAz (0, a) (90, b) ∧ compass sphereAz (0, a) (90, b) < 180) := by
  have ca := cos_rad_pos ha.1 ha.2
  have cb := cos_rad_pos hb.1 hb.2
  have e : Real.cos (rad a) * Real.sin (rad b) - Real.sin (rad a) * Real.cos (rad b) * Real.cos (rad (90 - 0))
      = Real.cos (rad a) * Real.sin (rad b) := by rw [sub_zero, rad_90, Real.cos_pi_div_two]; ring
  have e0 : Real.cos (rad b) * Real.sin (rad (90 - 0)) = Real.cos (rad b) := by
    rw [sub_zero, rad_90, Real.sin_pi_div_two, mul_one]
  rw [compass_sphere]
  dsimp only
  rw [e, e0]
  constructor
  · intro h
    obtain ⟨h1, h2⟩ := atan2_quad1 cb (mul_pos ca (sin_rad_pos h (by linarith [hb.2])))
    have g1 := lt_deg (c := 0) (by simpa using h1)
    have g2 := deg_lt (c := 90) (show atan2 (Real.cos (rad b)) (Real.cos (rad a) * Real.sin (rad b)) < 90 / 180 * Real.pi by linarith)
    rw [pyModR_self g1.le (by linarith)]
    exact ⟨g1, g2⟩
  · intro h
    obtain ⟨h1, h2⟩ := atan2_quad2 cb (mul_neg_of_pos_of_neg ca (sin_rad_neg h (by linarith [hb.1])))
    have g1 := lt_deg (c := 90) (show 90 / 180 * Real.pi < atan2 (Real.cos (rad b)) (Real.cos (rad a) * Real.sin (rad b)) by linarith)
    have g2 := deg_lt (c := 180) (show atan2 (Real.cos (rad b)) (Real.cos (rad a) * Real.sin (rad b)) < 180 / 180 * Real.pi by linarith)
    rw [pyModR_self (by linarith) (by linarith)]
    exact ⟨g1, g2⟩

theorem see_270 (a b : ℚ) (ha : -90 < a ∧ a < 90) (hb : -90 < b ∧ b < 90) :
    (0 < b → 270 < compass sphereAz (0, a) (-90, b) ∧ compass sphereAz (0, a) (-90, b) < 360) ∧
      (b < 0 → 180 < compass sphereAz (0, a) (-90, b) ∧ compass sphereAz (0, a) (-90, b) < 270) := by
  have cb := cos_rad_pos hb.1 hb.2
  have h90 := see_90 a b ha hb
  have e : compass sphereAz (0, a) (-90, b) = pyModR (-(atan2 (Real.cos (rad b) * Real.sin (rad (90 - 0)))
    (Real.cos (rad a) * Real.sin (rad b) - Real.sin (rad a) * Real.cos (rad b) * Real.cos (rad (90 - 0)))
      * 180 / Real.pi)) 360 := by
    rw [compass_sphere]
    dsimp only
    rw [show (-90 - 0 : ℚ) = -(90 - 0) by ring, rad_neg, Real.sin_neg, Real.cos_neg, mul_neg, atan2_neg_y]
    · congr 1; ring
    · rw [sub_zero, rad_90, Real.sin_pi_div_two, mul_one]; exact cb
  rw [compass_sphere] at h90
  dsimp only at h90
  rw [e]
  generalize atan2 (Real.cos (rad b) * Real.sin (rad (90 - 0)))
    (Real.cos (rad a) * Real.sin (rad b) - Real.sin (rad a) * Real.cos (rad b) * Real.cos (rad (90 - 0)))
      * 180 / Real.pi = t at *
  obtain ⟨k, hk⟩ := pyModR_cong t 360
  have hu : 0 < pyModR t 360 → pyModR (-t) 360 = 360 - pyModR t 360 := by
    intro h
    have hm := pyModR_mem t (m := 360) (by norm_num)
    have e2 : -t = (360 - pyModR t 360) + 360 * ((k - 1 : ℤ) : ℝ) := by rw [hk]; push_cast; ring
    rw [e2, pyModR_add _ (by norm_num), pyModR_self (by linarith) (by linarith)]
  constructor
  · intro h
    have := h90.1 h
    rw [hu this.1]
    constructor <;> linarith [this.1, this.2]
  · intro h
    have := h90.2 h
    rw [hu (by linarith [this.1])]
    constructor <;> linarith [this.1, this.2]

/-- A ring around the south or north pole at latitude `b`, eastward. -/
def east (b : ℚ) : List LL := [(0, b), (90, b), (180, b), (-90, b)]

/-- The same ring, westward. -/
def west (b : ℚ) : List LL := [(0, b), (-90, b), (180, b), (90, b)]

theorem polar_east (b : ℚ) : ispolar ((east b).map Prod.fst) = true := by
  show ispolar [0, 90, 180, -90] = true
  decide +kernel

theorem polar_west (b : ℚ) : ispolar ((west b).map Prod.fst) = true := by
  show ispolar [0, -90, 180, 90] = true
  decide +kernel

theorem sides_east (b : ℚ) : sides (east b) = [((0, b), (90, b)), ((90, b), (180, b)), ((180, b), (-90, b)), ((-90, b), (0, b))] := rfl

theorem sides_west (b : ℚ) : sides (west b) = [((0, b), (-90, b)), ((-90, b), (180, b)), ((180, b), (90, b)), ((90, b), (0, b))] := rfl

theorem contains_polar (az : LL → LL → ℝ) (p : LL) (ring : List LL) (h : ispolar (ring.map Prod.fst) = true) :
    (GPoly.mk ring []).contains az p = containsProj az p ring := by
  unfold GPoly.contains
  rw [if_pos h]
  unfold GPoly.anyContains
  simp

/-- **C136 is violated: points far away are contained.**  Every point of the zero meridian between latitudes `-b` and `b`
is reported inside the ring around the south pole at latitude `-b`, taken westward, although the ring does not go
around it. -/
theorem C136_violated_outside (a b : ℚ) (hb : 0 < b ∧ b < 90) (h1 : -b < a) (h2 : a < b) :
    (GPoly.mk (west (-b)) []).contains sphereAz (0, a) = true ∧ revolution sphereAz (0, a) (west (-b)) = 0 := by
  have ra : -90 < a ∧ a < 90 := ⟨by linarith [hb.2], by linarith [hb.2]⟩
  have rb : -90 < -b ∧ -b < 90 := ⟨by linarith [hb.2], by linarith [hb.1]⟩
  have c0 := (see_zero a (-b) ra rb).2 (by linarith)
  have c1 := (see_90 a (-b) ra rb).2 (by linarith)
  have c2 := (see_180 a (-b) ra rb).2 (by linarith)
  have c3 := (see_270 a (-b) ra rb).2 (by linarith)
  have hcw : ∀ s ∈ sides (west (-b)), ¬ NorthCW sphereAz (0, a) s := by
    rw [sides_west]
    simp only [List.forall_mem_cons, NorthCW, c0, c2]
    refine ⟨?_, ?_, ?_, ?_, by simp⟩ <;> linarith [c1.1, c1.2, c3.1, c3.2]
  have hccw : ∀ s ∈ sides (west (-b)), ¬ NorthCCW sphereAz (0, a) s := by
    rw [sides_west]
    simp only [List.forall_mem_cons, NorthCCW, c0, c2]
    refine ⟨?_, ?_, ?_, ?_, by simp⟩ <;> linarith [c1.1, c1.2, c3.1, c3.2]
  have hh : NoHalf sphereAz (0, a) (west (-b)) := by
    unfold NoHalf
    rw [sides_west]
    simp only [List.forall_mem_cons, c0, c2]
    refine ⟨?_, ?_, ?_, ?_, by simp⟩ <;> constructor <;> intro h <;> linarith [c1.1, c1.2, c3.1, c3.2]
  constructor
  · rw [contains_polar _ _ _ (polar_west _), C136_exact_partial _ _ _ (by simp [west])]
    exact hcw
  · rw [revolution_eq _ _ _ hh]
    have z1 : cwCount sphereAz (0, a) (sides (west (-b))) = 0 := by
      unfold cwCount; rw [List.countP_eq_zero]; simpa using hcw
    have z2 : ccwCount sphereAz (0, a) (sides (west (-b))) = 0 := by
      unfold ccwCount; rw [List.countP_eq_zero]; simpa using hccw
    rw [z1, z2]; simp

/-- **C136 is violated: points inside are not contained.**  Every point of the zero meridian between the ring around the
south pole at latitude `-b`, taken eastward, and the pole is reported outside, although the ring goes around it. -/
theorem C136_violated_inside (a b : ℚ) (hb : 0 < b ∧ b < 90) (h1 : -90 < a) (h2 : a < -b) :
    (GPoly.mk (east (-b)) []).contains sphereAz (0, a) = false ∧ revolution sphereAz (0, a) (east (-b)) = 360 := by
  have ra : -90 < a ∧ a < 90 := ⟨h1, by linarith [hb.1]⟩
  have rb : -90 < -b ∧ -b < 90 := ⟨by linarith [hb.2], by linarith [hb.1]⟩
  have c0 := (see_zero a (-b) ra rb).1 (by linarith)
  have c1 := (see_90 a (-b) ra rb).2 (by linarith)
  have c2 := (see_180 a (-b) ra rb).2 (by linarith)
  have c3 := (see_270 a (-b) ra rb).2 (by linarith)
  have hh : NoHalf sphereAz (0, a) (east (-b)) := by
    unfold NoHalf
    rw [sides_east]
    simp only [List.forall_mem_cons, c0, c2]
    refine ⟨?_, ?_, ?_, ?_, by simp⟩ <;> constructor <;> intro h <;> linarith [c1.1, c1.2, c3.1, c3.2]
  have n1 : ¬ NorthCW sphereAz (0, a) ((0, -b), (90, -b)) := by
    simp only [NorthCW, c0]; linarith [c1.1]
  have n2 : ¬ NorthCW sphereAz (0, a) ((90, -b), (180, -b)) := by
    simp only [NorthCW, c2]; linarith [c1.2]
  have n3 : ¬ NorthCW sphereAz (0, a) ((180, -b), (-90, -b)) := by
    simp only [NorthCW, c2]; linarith [c3.1]
  have n4 : NorthCW sphereAz (0, a) ((-90, -b), (0, -b)) := by
    simp only [NorthCW, c0]; linarith [c3.1]
  have hccw : ∀ s ∈ sides (east (-b)), ¬ NorthCCW sphereAz (0, a) s := by
    rw [sides_east]
    simp only [List.forall_mem_cons, NorthCCW, c0, c2]
    refine ⟨?_, ?_, ?_, ?_, by simp⟩ <;> linarith [c1.1, c1.2, c3.1, c3.2]
  constructor
  · rw [contains_polar _ _ _ (polar_east _), Bool.eq_false_iff, ne_eq, C136_exact_partial _ _ _ (by simp [east])]
    intro h
    exact h _ (by rw [sides_east]; simp) n4
  · rw [revolution_eq _ _ _ hh]
    have z1 : cwCount sphereAz (0, a) (sides (east (-b))) = 1 := by
      unfold cwCount; rw [sides_east]; simp [List.countP_cons, n1, n2, n3, n4]
    have z2 : ccwCount sphereAz (0, a) (sides (east (-b))) = 0 := by
      unfold ccwCount; rw [List.countP_eq_zero]; simpa using hccw
    rw [z1, z2]; norm_num

/-- Non-vacuity: around the north pole, eastward, the answers are right on the zero meridian. -/
theorem north_example (a b : ℚ) (hb : 0 < b ∧ b < 90) (h1 : b < a) (h2 : a < 90) :
    (GPoly.mk (east b) []).contains sphereAz (0, a) = true ∧ revolution sphereAz (0, a) (east b) = -360 ∧
      NoHalf sphereAz (0, a) (east b) ∧ (∃ s ∈ sides (east b), NorthCCW sphereAz (0, a) s) := by
  have ra : -90 < a ∧ a < 90 := ⟨by linarith [hb.1], h2⟩
  have rb : -90 < b ∧ b < 90 := ⟨by linarith [hb.1], hb.2⟩
  have c0 := (see_zero a b ra rb).2 (by linarith)
  have c1 := (see_90 a b ra rb).1 (by linarith)
  have c2 := (see_180 a b ra rb).1 (by linarith)
  have c3 := (see_270 a b ra rb).1 (by linarith)
  have hh : NoHalf sphereAz (0, a) (east b) := by
    unfold NoHalf
    rw [sides_east]
    simp only [List.forall_mem_cons, c0, c2]
    refine ⟨?_, ?_, ?_, ?_, by simp⟩ <;> constructor <;> intro h <;> linarith [c1.1, c1.2, c3.1, c3.2]
  have n1 : ¬ NorthCCW sphereAz (0, a) ((0, b), (90, b)) := by
    simp only [NorthCCW, c0]; linarith [c1.2]
  have n2 : ¬ NorthCCW sphereAz (0, a) ((90, b), (180, b)) := by
    simp only [NorthCCW, c2]; linarith [c1.1]
  have n3 : NorthCCW sphereAz (0, a) ((180, b), (-90, b)) := by
    simp only [NorthCCW, c2]; linarith [c3.1]
  have n4 : ¬ NorthCCW sphereAz (0, a) ((-90, b), (0, b)) := by
    simp only [NorthCCW, c0]; linarith [c3.1]
  have hcw : ∀ s ∈ sides (east b), ¬ NorthCW sphereAz (0, a) s := by
    rw [sides_east]
    simp only [List.forall_mem_cons, NorthCW, c0, c2]
    refine ⟨?_, ?_, ?_, ?_, by simp⟩ <;> linarith [c1.1, c1.2, c3.1, c3.2]
  refine ⟨?_, ?_, hh, _, by rw [sides_east]; simp, n3⟩
  · rw [contains_polar _ _ _ (polar_east _), C136_exact_partial _ _ _ (by simp [east])]
    exact hcw
  · rw [revolution_eq _ _ _ hh]
    have z1 : cwCount sphereAz (0, a) (sides (east b)) = 0 := by
      unfold cwCount; rw [List.countP_eq_zero]; simpa using hcw
    have z2 : ccwCount sphereAz (0, a) (sides (east b)) = 1 := by
      unfold ccwCount; rw [sides_east]; simp [List.countP_cons, n1, n2, n3, n4]
    rw [z1, z2]; norm_num

example : (GPoly.mk (east 60) []).contains sphereAz (0, 80) = true := (north_example 80 60 (by norm_num) (by norm_num) (by norm_num)).1
example : (GPoly.mk (west (-60)) []).contains sphereAz (0, 10) = true :=
  (C136_violated_outside 10 60 (by norm_num) (by norm_num) (by norm_num)).1

theorem anyContains_iff (az : LL → LL → ℝ) (p : LL) (subs : List GPoly) :
    GPoly.anyContains az p subs = true ↔ ∃ s ∈ subs, s.contains az p = true := by
  induction subs with
  | nil => simp [GPoly.anyContains]
  | cons s subs ih => rw [GPoly.anyContains, Bool.or_eq_true, ih]; simp

/-- **C136, holes.**  Wherever the ring runs, a polygon contains the points that its ring contains and none of its
sub-polygons does. -/
theorem C136_holes (az : LL → LL → ℝ) (p : LL) (ring : List LL) (subs : List GPoly) :
    (GPoly.mk ring subs).contains az p = true ↔
      (GPoly.mk ring []).contains az p = true ∧ ∀ s ∈ subs, s.contains az p = false := by
  have hn : ∀ s ∈ ([] : List GPoly), s.contains az p = false := by simp
  have key : ∀ b : Bool, (b && !(GPoly.anyContains az p subs)) = true ↔ b = true ∧ ∀ s ∈ subs, s.contains az p = false := by
    intro b
    rw [Bool.and_eq_true, Bool.not_eq_true', ← Bool.not_eq_true, anyContains_iff]
    simp
  have e0 : GPoly.anyContains az p [] = false := by rw [GPoly.anyContains]
  rw [GPoly.contains, GPoly.contains, e0]
  by_cases hp : ispolar (ring.map Prod.fst) = true
  · rw [if_pos hp, if_pos hp, key, Bool.not_false, Bool.and_true]
  · rw [if_neg hp, if_neg hp, key, Bool.not_false, Bool.and_true]

/-- **C136, other rings.**  A ring that does not go around a pole contains what it contains on a plane map of longitudes
and latitudes. -/
theorem C136_away (az : LL → LL → ℝ) (p : LL) (ring : List LL) (h : ispolar (ring.map Prod.fst) = false) :
    (GPoly.mk ring []).contains az p = (Vec.Poly.mk (ring.map fun v => ⟨v.1, v.2⟩) []).contains ⟨p.1, p.2⟩ := by
  rw [GPoly.contains, if_neg (by rw [h]; simp), GPoly.anyContains, Vec.Poly.contains, Vec.Poly.anyContains]

/-- A square with a square hole away from the poles: the hypotheses are met, and a point in the hole is outside. -/
example : ispolar ([((0 : ℚ), (0 : ℚ)), (10, 0), (10, 10), (0, 10)].map Prod.fst) = false ∧
    (GPoly.mk [(0, 0), (10, 0), (10, 10), (0, 10)] [.mk [(4, 4), (6, 4), (6, 6), (4, 6)] []]).contains sphereAz (1, 1) = true ∧
    (GPoly.mk [(0, 0), (10, 0), (10, 10), (0, 10)] [.mk [(4, 4), (6, 4), (6, 6), (4, 6)] []]).contains sphereAz (5, 5) = false := by
  have p1 : ispolar ([((0 : ℚ), (0 : ℚ)), (10, 0), (10, 10), (0, 10)].map Prod.fst) = false := by decide +kernel
  have p2 : ispolar ([((4 : ℚ), (4 : ℚ)), (6, 4), (6, 6), (4, 6)].map Prod.fst) = false := by decide +kernel
  refine ⟨p1, ?_, ?_⟩
  · rw [C136_holes, C136_away _ _ _ p1]
    refine ⟨by decide +kernel, ?_⟩
    intro s hs
    rw [List.mem_singleton.1 hs, C136_away _ _ _ p2]
    decide +kernel
  · rw [← Bool.not_eq_true, C136_holes]
    rintro ⟨-, h⟩
    have := h _ (List.mem_singleton.2 rfl)
    rw [C136_away _ _ _ p2] at this
    exact absurd this (by decide +kernel)

end Karta.Geod.Polar
