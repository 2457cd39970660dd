import Verif.Float.TileRow
import Mathlib.Analysis.SpecialFunctions.Trigonometric.ArctanDeriv

/-!
# Latitudes of the corners of tiles in floating point

Model of the latitude returned by `nw_corner` (karta/tile.py 19-33), from which `bbox` (35-50) is made, with rounded arithmetic, and
property C184.
-/

namespace Karta.Float.TileCorner
open Karta Karta.Float Karta.Float.TileRow Karta.Tile

/-! ### Model -/

/-- `math.sinh` and `math.atan`. -/
structure Hyp where
  sinh : ℚ → ℚ
  atan : ℚ → ℚ

/-- `nw_corner`, latitude (tile.py 27-32) for `math.pi = P`:
`math.atan(math.sinh(math.pi * (1-2*y/n))) * 180.0 / math.pi`, with the division of Python 3. -/
def nwLatF (R : Rounding) (H : Hyp) (P : ℚ) (z : Nat) (y : Int) : ℚ :=
  R.fl (R.fl (H.atan (H.sinh (R.fl (P * R.fl (1 - R.fl (2 * y / 2 ^ z))))) * 180) / P)

/-- `bbox`, southern and northern limit (tile.py 35-50). -/
def bboxLatF (R : Rounding) (H : Hyp) (P : ℚ) (z : Nat) (y : Int) : ℚ × ℚ := (nwLatF R H P z (y + 1), nwLatF R H P z y)

/-! ### Assumptions -/

/-- The library is accurate to a unit in the last of 53 places. -/
structure Hyp.Accurate (H : Hyp) : Prop where
  sinh_err : ∀ x : ℚ, |(H.sinh x : ℝ) - Real.sinh x| ≤ 1 / 2 ^ 52 * |Real.sinh x|
  atan_err : ∀ x : ℚ, |(H.atan x : ℝ) - Real.arctan x| ≤ 1 / 2 ^ 52 * |Real.arctan x|

/-! ### Errors -/

/-- The latitude (radians) at a Mercator ordinate. -/
noncomputable def gd (m : ℝ) : ℝ := Real.arctan (Real.sinh m)

theorem gd_mono : Monotone gd := fun _ _ h => Real.arctan_strictMono.monotone (Real.sinh_strictMono.monotone h)

theorem gd_lipschitz (a b : ℝ) : |gd a - gd b| ≤ |a - b| := by
  have hd : ∀ x : ℝ, HasDerivAt gd (1 / (1 + Real.sinh x ^ 2) * Real.cosh x) x := fun x => (Real.hasDerivAt_sinh x).arctan
  have := Convex.norm_image_sub_le_of_norm_hasDerivWithin_le (f := gd) (C := 1) (s := Set.univ) (x := b) (y := a)
    (fun x _ => (hd x).hasDerivWithinAt) (fun x _ => by
      have h1 := Real.cosh_sq x
      have h2 := Real.one_le_cosh x
      have e : 1 + Real.sinh x ^ 2 = Real.cosh x ^ 2 := by rw [h1]; ring
      rw [e, Real.norm_eq_abs, abs_of_nonneg (by positivity), div_mul_eq_mul_div, one_mul, div_le_one (by positivity)]
      nlinarith) convex_univ (Set.mem_univ _) (Set.mem_univ _)
  simpa using this

theorem arctan_lipschitz (a b : ℝ) : |Real.arctan a - Real.arctan b| ≤ |a - b| := by
  have := Convex.norm_image_sub_le_of_norm_hasDerivWithin_le (f := Real.arctan) (C := 1) (s := Set.univ) (x := b) (y := a)
    (fun x _ => (Real.hasDerivAt_arctan x).hasDerivWithinAt) (fun x _ => by
      rw [Real.norm_eq_abs, abs_of_nonneg (by positivity), div_le_one (by positivity)]
      nlinarith [sq_nonneg x]) convex_univ (Set.mem_univ _) (Set.mem_univ _)
  simpa using this

/-- A relative error in the tangent is at most the same error of the angle. -/
theorem arctan_rel {s t e : ℝ} (he : 0 ≤ e) (he' : e ≤ 1 / 2) (h : |t - s| ≤ e * |s|) : |Real.arctan t - Real.arctan s| ≤ e := by
  have key : ∀ a b : ℝ, 0 < a → a ≤ b → b - a ≤ 2 * e * a → Real.arctan b - Real.arctan a ≤ e := by
    intro a b ha hab hb
    have e1 := Real.arctan_add (x := b) (y := -a) (by nlinarith)
    rw [Real.arctan_neg] at e1
    rw [sub_eq_add_neg, e1]
    have q : (b + -a) / (1 - b * -a) ≤ e := by
      rw [div_le_iff₀ (by nlinarith)]
      nlinarith [sq_nonneg (a - 1), mul_nonneg he ha.le, mul_nonneg he (mul_nonneg ha.le (sub_nonneg.2 hab))]
    have q0 : 0 ≤ (b + -a) / (1 - b * -a) := div_nonneg (by linarith) (by nlinarith)
    have := arctan_lipschitz ((b + -a) / (1 - b * -a)) 0
    rw [Real.arctan_zero, sub_zero, sub_zero, abs_of_nonneg q0] at this
    exact (le_abs_self _).trans (this.trans q)
  have pos : ∀ s t : ℝ, 0 < s → |t - s| ≤ e * s → |Real.arctan t - Real.arctan s| ≤ e := by
    intro s t hs h
    have h' := abs_le.1 h
    rw [abs_le]
    rcases le_total s t with c | c
    · have := key s t hs c (by nlinarith)
      have m := Real.arctan_strictMono.monotone c
      constructor <;> linarith
    · have ht : s / 2 ≤ t := by nlinarith
      have := key t s (by linarith) c (by nlinarith)
      have m := Real.arctan_strictMono.monotone c
      constructor <;> linarith
  rcases lt_trichotomy s 0 with hs | hs | hs
  · rw [abs_of_neg hs] at h
    have := pos (-s) (-t) (by linarith) (by rw [← abs_neg]; simpa [sub_eq_add_neg, add_comm] using h)
    rw [Real.arctan_neg, Real.arctan_neg, ← abs_neg] at this
    simpa [sub_eq_add_neg, add_comm] using this
  · rw [hs, abs_zero, mul_zero, sub_zero] at h
    have : t = 0 := abs_eq_zero.1 (le_antisymm h (abs_nonneg t))
    rw [hs, this]; simpa using he
  · rw [abs_of_pos hs] at h
    exact pos s t hs h

theorem gd_le {m : ℝ} (h : |m| ≤ Real.pi) : |gd m| ≤ Real.pi / 2 - 1 / 13 := by
  have key : gd Real.pi ≤ Real.pi / 2 - 1 / 13 := by
    have p2 := Real.pi_lt_d2
    have c1 : Real.cos (gd Real.pi) = 1 / Real.cosh Real.pi := by
      unfold gd
      rw [Real.cos_arctan]
      have e : 1 + Real.sinh Real.pi ^ 2 = Real.cosh Real.pi ^ 2 := by rw [Real.cosh_sq]; ring
      rw [e, Real.sqrt_sq (Real.cosh_pos _).le]
    have ch : Real.cosh Real.pi ≤ 13 := by
      rw [Real.cosh_eq]
      have e1 : Real.exp (-Real.pi) ≤ 1 := Real.exp_le_one_iff.2 (by linarith [Real.pi_pos])
      have e2 : Real.exp Real.pi ≤ 25 := by
        have h1 : Real.exp Real.pi ≤ Real.exp (3 + 3 / 20) := Real.exp_le_exp.2 (by norm_num at p2 ⊢; linarith)
        have h2 := Real.exp_one_lt_d9
        have h3 : Real.exp 3 = Real.exp 1 ^ 3 := by rw [← Real.exp_nat_mul]; norm_num
        have h4 : Real.exp 1 ^ 3 ≤ 2.72 ^ 3 := pow_le_pow_left₀ (Real.exp_pos _).le (by norm_num at h2 ⊢; linarith) 3
        have h5 : Real.exp (3 / 20) ≤ 1.2 := by
          refine (Real.exp_bound' (by norm_num) (by norm_num) (n := 3) (by norm_num)).trans ?_
          norm_num [Finset.sum_range_succ, Nat.factorial]
        rw [Real.exp_add, h3] at h1
        have h6 : Real.exp 1 ^ 3 * Real.exp (3 / 20) ≤ 2.72 ^ 3 * 1.2 := mul_le_mul h4 h5 (Real.exp_pos _).le (by norm_num)
        exact h1.trans (h6.trans (by norm_num))
      linarith
    have c2 : 1 / 13 ≤ Real.cos (gd Real.pi) := by
      rw [c1]
      exact one_div_le_one_div_of_le (Real.cosh_pos _) ch
    have c3 : Real.cos (gd Real.pi) ≤ Real.pi / 2 - gd Real.pi := by
      rw [← Real.sin_pi_div_two_sub]
      exact Real.sin_le (by have := Real.arctan_lt_pi_div_two (Real.sinh Real.pi); unfold gd; linarith)
    linarith
  have neg : gd (-Real.pi) = -gd Real.pi := by unfold gd; rw [Real.sinh_neg, Real.arctan_neg]
  rw [abs_le] at h ⊢
  have h1 := gd_mono h.1
  have h2 := gd_mono h.2
  constructor <;> linarith

/-- The ordinate of the northern border of a row. -/
noncomputable def ordinate (z : Nat) (y : Int) : ℝ := Real.pi * (1 - 2 * y / 2 ^ z)

theorem ordinate_le {z : Nat} {y : Int} (h0 : 0 ≤ y) (h1 : y ≤ 2 ^ z) : |1 - 2 * (y : ℝ) / 2 ^ z| ≤ 1 := by
  have a : (0 : ℝ) ≤ y := by exact_mod_cast h0
  have b : (y : ℝ) ≤ 2 ^ z := by exact_mod_cast h1
  have hz : (0 : ℝ) < 2 ^ z := by positivity
  have c : (y : ℝ) / 2 ^ z ≤ 1 := (div_le_one hz).2 b
  have d : 0 ≤ (y : ℝ) / 2 ^ z := div_nonneg a hz.le
  rw [mul_div_assoc, abs_le]
  constructor <;> linarith

theorem part_exact (R : Rounding) {z : Nat} (hz : z ≤ 50) {y : Int} (h0 : 0 ≤ y) (h1 : y ≤ 2 ^ z) :
    R.fl (1 - R.fl (2 * y / 2 ^ z)) = 1 - 2 * y / 2 ^ z := by
  have hzp : (2 : ℚ) ^ (-(z : ℤ)) = 1 / 2 ^ z := by rw [zpow_neg, zpow_natCast, one_div]
  have hpow : (2 : ℤ) ^ z ≤ 2 ^ 50 := pow_le_pow_right₀ (by norm_num) hz
  have e1 : (2 * y / 2 ^ z : ℚ) = ((2 * y : ℤ) : ℚ) * 2 ^ (-(z : ℤ)) := by rw [hzp]; push_cast; ring
  have e2 : (1 - 2 * y / 2 ^ z : ℚ) = ((2 ^ z - 2 * y : ℤ) : ℚ) * 2 ^ (-(z : ℤ)) := by
    rw [hzp]; push_cast; field_simp
  have r1 : R.fl (2 * y / 2 ^ z) = 2 * y / 2 ^ z := by
    rw [e1, R.exact _ _ (by rw [abs_of_nonneg (by omega)]; omega)]
  rw [r1, e2, R.exact _ _ (by rw [abs_le]; constructor <;> omega)]

theorem corner_err (R : Rounding) {H : Hyp} (hH : H.Accurate) {P : ℚ} (hP : PiLike P) {z : Nat} (hz : z ≤ 50) {y : Int} (h0 : 0 ≤ y)
    (h1 : y ≤ 2 ^ z) : |((nwLatF R H P z y : ℚ) : ℝ) * Real.pi / 180 - gd (ordinate z y)| ≤ 1 / 2 ^ 49 := by
  have p1 := Real.pi_gt_d2
  have p2 := Real.pi_lt_d2
  have hP' := abs_le.1 hP
  have P1 : (3 : ℝ) ≤ P := by norm_num at hP' p1 p2 ⊢; linarith [hP'.1]
  have P2 : (P : ℝ) ≤ 16 / 5 := by norm_num at hP' p1 p2 ⊢; linarith [hP'.2]
  unfold nwLatF
  rw [part_exact R hz h0 h1]
  have hr := ordinate_le h0 h1
  have em := SphereF.flr R (P * (1 - 2 * y / 2 ^ z))
  push_cast at em
  unfold ordinate
  generalize hM : R.fl (P * (1 - 2 * (y : ℚ) / 2 ^ z)) = M at *
  generalize (1 - 2 * (y : ℝ) / 2 ^ z) = r at *
  have em2 : |(M : ℝ) - Real.pi * r| ≤ 26 / 5 / 2 ^ 53 := by
    have t1 : |(P : ℝ) * r| ≤ 16 / 5 := by
      rw [abs_mul, abs_of_nonneg (a := (P : ℝ)) (by linarith)]
      nlinarith [abs_nonneg r]
    have t2 : |((P : ℝ) - Real.pi) * r| ≤ 1 / 2 ^ 52 := by
      rw [abs_mul]
      nlinarith [abs_nonneg r, abs_nonneg ((P : ℝ) - Real.pi), show |(P : ℝ) - Real.pi| ≤ 1 / 2 ^ 52 from hP]
    have t3 := em.trans (mul_le_mul_of_nonneg_left t1 (by norm_num))
    have e : (M : ℝ) - Real.pi * r = (M - P * r) + (P - Real.pi) * r := by ring
    rw [e]
    refine (abs_add_le _ _).trans ((add_le_add t3 t2).trans (by norm_num))
  have g1 := (gd_lipschitz M (Real.pi * r)).trans em2
  have s1 : |Real.arctan ((H.sinh M : ℚ) : ℝ) - gd M| ≤ 1 / 2 ^ 52 :=
    arctan_rel (by norm_num) (by norm_num) (hH.sinh_err M)
  have a1 := hH.atan_err (H.sinh M)
  have half := abs_lt.2 ⟨Real.neg_pi_div_two_lt_arctan ((H.sinh M : ℚ) : ℝ), Real.arctan_lt_pi_div_two ((H.sinh M : ℚ) : ℝ)⟩
  have a2 : |((H.atan (H.sinh M) : ℚ) : ℝ) - Real.arctan ((H.sinh M : ℚ) : ℝ)| ≤ 1 / 2 ^ 52 * (8 / 5) :=
    a1.trans (mul_le_mul_of_nonneg_left (half.le.trans (by norm_num at p2 ⊢; linarith)) (by norm_num))
  generalize H.atan (H.sinh M) = A at *
  generalize Real.arctan ((H.sinh M : ℚ) : ℝ) = B at *
  have f1 : |(A : ℝ) - gd (Real.pi * r)| ≤ (26 / 5 + 2 + 16 / 5) / 2 ^ 53 := by
    rw [abs_le] at g1 s1 a2 ⊢
    norm_num at g1 s1 a2 ⊢
    constructor <;> linarith [g1.1, g1.2, s1.1, s1.2, a2.1, a2.2]
  have Ab : |(A : ℝ)| ≤ 17 / 10 := by
    rw [abs_le] at a2 ⊢
    rw [abs_lt] at half
    norm_num at a2 p2 ⊢
    constructor <;> linarith [a2.1, a2.2, half.1, half.2]
  obtain ⟨d1, b1, e1⟩ := R.rel (A * 180)
  rw [e1]
  obtain ⟨d2, b2, e2⟩ := R.rel (A * 180 * (1 + d1) / P)
  rw [e2]
  have one : ∀ d : ℚ, |d| ≤ 1 / 2 ^ 53 → |(1 + d) - 1| ≤ 1 / 2 ^ 53 := by
    intro d hd
    rwa [add_sub_cancel_left]
  have hD : |(1 + d1) * (1 + d2) - 1| ≤ 9 / 4 / 2 ^ 53 := (prod_err (one d1 b1) (one d2 b2)).trans (by norm_num)
  have hD' : |(((1 + d1) * (1 + d2) : ℚ) : ℝ) - 1| ≤ 9 / 4 / 2 ^ 53 := by
    have := (Rat.cast_le (K := ℝ)).2 hD
    push_cast at this ⊢
    exact this
  generalize hDd : (1 + d1) * (1 + d2) = D at hD hD'
  have hP0 : (0 : ℝ) < P := by linarith
  have key : ((A * 180 * (1 + d1) / P * (1 + d2) : ℚ) : ℝ) * Real.pi / 180 = A + A * ((D - 1) * Real.pi + (Real.pi - P)) / P := by
    rw [← hDd]
    push_cast
    field_simp
    ring
  rw [key]
  have k1 : |(A : ℝ) * ((D - 1) * Real.pi + (Real.pi - P)) / P| ≤ 17 / 10 * (9 / 4 / 2 ^ 53 * (16 / 5) + 1 / 2 ^ 52) / 3 := by
    rw [abs_div, abs_mul, abs_of_pos hP0]
    have n1 : |((D : ℝ) - 1) * Real.pi + (Real.pi - P)| ≤ 9 / 4 / 2 ^ 53 * (16 / 5) + 1 / 2 ^ 52 := by
      refine (abs_add_le _ _).trans (add_le_add ?_ (by rw [abs_sub_comm]; exact hP))
      rw [abs_mul, abs_of_pos Real.pi_pos]
      exact mul_le_mul hD' (by norm_num at p2 ⊢; linarith) Real.pi_pos.le (by norm_num)
    exact div_le_div₀ (by norm_num) (mul_le_mul Ab n1 (abs_nonneg _) (by norm_num)) (by norm_num) P1
  rw [abs_le] at k1 f1 ⊢
  norm_num at k1 f1 ⊢
  constructor <;> linarith [k1.1, k1.2, f1.1, f1.2]

theorem corner_range (R : Rounding) {H : Hyp} (hH : H.Accurate) {P : ℚ} (hP : PiLike P) {z : Nat} (hz : z ≤ 50) {y : Int} (h0 : 0 ≤ y)
    (h1 : y ≤ 2 ^ z) : |((nwLatF R H P z y : ℚ) : ℝ)| ≤ 86 := by
  have p1 := Real.pi_gt_three
  have p2 := Real.pi_lt_d2
  have e := abs_le.1 (corner_err R hH hP hz h0 h1)
  have g := abs_le.1 (gd_le (m := ordinate z y) (by
    unfold ordinate
    rw [abs_mul, abs_of_pos Real.pi_pos]
    nlinarith [ordinate_le h0 h1, Real.pi_pos]))
  rw [abs_le]
  norm_num at e p2
  constructor <;> nlinarith [e.1, e.2, g.1, g.2]

/-- How far down the map the corner is. -/
theorem corner_down (R : Rounding) {H : Hyp} (hH : H.Accurate) {P : ℚ} (hP : PiLike P) {z : Nat} (hz : z ≤ 50) {y : Int} (h0 : 0 ≤ y)
    (h1 : y ≤ 2 ^ z) : |down (nwLatF R H P z y : ℚ) - y / 2 ^ z| ≤ 1 / 2 ^ 46 := by
  have p1 := Real.pi_gt_three
  have rg := corner_range R hH hP hz h0 h1
  have e := abs_le.1 (corner_err R hH hP hz h0 h1)
  have g := abs_le.1 (gd_le (m := ordinate z y) (by
    unfold ordinate
    rw [abs_mul, abs_of_pos Real.pi_pos]
    nlinarith [ordinate_le h0 h1, Real.pi_pos]))
  obtain ⟨m1, m2⟩ := mid_angle rg
  have mid : Mid (Real.pi / 4 + ((nwLatF R H P z y : ℚ) : ℝ) * Real.pi / 360) := ⟨by linarith, by linarith⟩
  have mid' : Mid (Real.pi / 4 + gd (ordinate z y) / 2) := ⟨by linarith [g.1], by linarith [g.2]⟩
  have d := log_tan_near mid mid' (by
    rw [abs_le]
    norm_num at e ⊢
    constructor <;> linarith [e.1, e.2])
  have q : Real.log (Real.tan (Real.pi / 4 + gd (ordinate z y) / 2)) = ordinate z y := by
    have l1 : -90 < gd (ordinate z y) * 180 / Real.pi := by rw [lt_div_iff₀ Real.pi_pos]; linarith [g.1]
    have l2 : gd (ordinate z y) * 180 / Real.pi < 90 := by rw [div_lt_iff₀ Real.pi_pos]; linarith [g.2]
    have := merc_eq l1 l2
    unfold merc at this
    have e1 : gd (ordinate z y) * 180 / Real.pi * Real.pi / 360 = gd (ordinate z y) / 2 := by
      field_simp; ring
    have e2 : gd (ordinate z y) * 180 / Real.pi * Real.pi / 180 = gd (ordinate z y) := by field_simp
    rw [e1, e2] at this
    rw [this]
    unfold gd
    rw [Real.tan_arctan, Real.arsinh_sinh]
  rw [q] at d
  have dn : down ((nwLatF R H P z y : ℚ) : ℝ) - y / 2 ^ z =
      -((Real.log (Real.tan (Real.pi / 4 + ((nwLatF R H P z y : ℚ) : ℝ) * Real.pi / 360)) - ordinate z y) / (2 * Real.pi)) := by
    have r' := abs_le.1 rg
    have me := merc_eq (lat := ((nwLatF R H P z y : ℚ) : ℝ)) (by linarith [r'.1]) (by linarith [r'.2])
    unfold down
    rw [← me]
    unfold merc ordinate
    have := Real.pi_pos.ne'
    field_simp
    ring
  rw [dn, abs_neg, abs_div, abs_of_pos (a := 2 * Real.pi) (by linarith), div_le_iff₀ (by linarith)]
  refine d.trans ?_
  norm_num
  linarith

/-! ### Theorems -/

/-- **C184 (accuracy).** The latitude of the corner is that of the border of the row on the Mercator map, up to `1/2^43` degrees (some 13
nanometres). -/
theorem C184_accuracy (R : Rounding) {H : Hyp} (hH : H.Accurate) {P : ℚ} (hP : PiLike P) {z : Nat} (hz : z ≤ 50) {y : Int} (h0 : 0 ≤ y)
    (h1 : y ≤ 2 ^ z) : ∃ lat : ℝ, |lat| < 90 ∧ down lat = y / 2 ^ z ∧ |((nwLatF R H P z y : ℚ) : ℝ) - lat| ≤ 1 / 2 ^ 43 := by
  have p1 := Real.pi_gt_three
  have e := corner_err R hH hP hz h0 h1
  have g := abs_le.1 (gd_le (m := ordinate z y) (by
    unfold ordinate
    rw [abs_mul, abs_of_pos Real.pi_pos]
    nlinarith [ordinate_le h0 h1, Real.pi_pos]))
  refine ⟨gd (ordinate z y) * 180 / Real.pi, ?_, ?_, ?_⟩
  · rw [abs_lt, lt_div_iff₀ Real.pi_pos, div_lt_iff₀ Real.pi_pos]
    constructor <;> linarith [g.1, g.2]
  · unfold down
    have e2 : gd (ordinate z y) * 180 / Real.pi * Real.pi / 180 = gd (ordinate z y) := by field_simp
    rw [e2]
    unfold gd
    rw [Real.tan_arctan, Real.arsinh_sinh]
    unfold ordinate
    have := Real.pi_pos.ne'
    field_simp
    ring
  · have e3 : ((nwLatF R H P z y : ℚ) : ℝ) - gd (ordinate z y) * 180 / Real.pi =
        (((nwLatF R H P z y : ℚ) : ℝ) * Real.pi / 180 - gd (ordinate z y)) * (180 / Real.pi) := by
      have := Real.pi_pos.ne'
      field_simp
    rw [e3, abs_mul, abs_of_pos (a := 180 / Real.pi) (by positivity)]
    have k : 180 / Real.pi ≤ 60 := by rw [div_le_iff₀ Real.pi_pos]; linarith
    exact (mul_le_mul e k (by positivity) (by norm_num)).trans (by norm_num)

theorem down_anti {a b : ℝ} (ha : |a| < 90) (hb : |b| < 90) (h : a ≤ b) : down b ≤ down a := by
  rw [abs_lt] at ha hb
  unfold down
  have t : Real.tan (a * Real.pi / 180) ≤ Real.tan (b * Real.pi / 180) := by
    have pi := Real.pi_pos
    rcases h.lt_or_eq with h | h
    · exact (Real.tan_lt_tan_of_lt_of_lt_pi_div_two (by nlinarith) (by nlinarith) (by nlinarith)).le
    · rw [h]
  have := div_le_div_of_nonneg_right (Real.arsinh_le_arsinh.2 t) Real.pi_pos.le
  linarith

/-- **C184 (order).** Up to zoom level 44 the southern limit of every tile is south of its northern limit. -/
theorem C184_order (R : Rounding) {H : Hyp} (hH : H.Accurate) {P : ℚ} (hP : PiLike P) {z : Nat} (hz : z ≤ 44) {y : Int} (h0 : 0 ≤ y)
    (h1 : y < 2 ^ z) : (bboxLatF R H P z y).1 < (bboxLatF R H P z y).2 := by
  have hz' : z ≤ 50 := by omega
  have a := abs_le.1 (corner_down R hH hP hz' h0 h1.le)
  have b := abs_le.1 (corner_down R hH hP hz' (y := y + 1) (by omega) (by omega))
  have ra := corner_range R hH hP hz' h0 h1.le
  have rb := corner_range R hH hP hz' (y := y + 1) (by omega) (by omega)
  unfold bboxLatF
  dsimp only
  by_contra hc
  have hle : ((nwLatF R H P z y : ℚ) : ℝ) ≤ (nwLatF R H P z (y + 1) : ℚ) := by exact_mod_cast not_lt.1 hc
  have := down_anti (lt_of_le_of_lt ra (by norm_num)) (lt_of_le_of_lt rb (by norm_num)) hle
  have w : (1 : ℝ) / 2 ^ 44 ≤ 1 / 2 ^ z := one_div_le_one_div_of_le (by positivity) (pow_le_pow_right₀ (by norm_num) hz)
  have s : (((y + 1 : ℤ) : ℝ)) / 2 ^ z = y / 2 ^ z + 1 / 2 ^ z := by push_cast; ring
  rw [s] at b
  norm_num at a b w
  linarith [a.2, b.1]

/-- **C184 (lookup, partial).** Full statement: looking up the corner of a tile gives the row of the tile.  Proved: up to zoom level 44 it
gives that row or the next one to the north.  Missing because false (`C184_violated_lookup`): that it is always the row of the tile. -/
theorem C184_lookup_partial (R : Rounding) {H : Hyp} (hH : H.Accurate) {T : Lib} (hT : T.Accurate) {P : ℚ} (hP : PiLike P) {z : Nat} (hz : z ≤ 44)
    {y : Int} (h0 : 0 ≤ y) (h1 : y ≤ 2 ^ z) :
    tileRowF R T P (nwLatF R H P z y) z = .ok y ∨ tileRowF R T P (nwLatF R H P z y) z = .ok (y - 1) := by
  have hz' : z ≤ 50 := by omega
  have a := abs_le.1 (corner_down R hH hP hz' h0 h1)
  obtain ⟨w, hw, w1, w2⟩ := C183_near R hT hP (corner_range R hH hP hz' h0 h1) z
  rw [hw]
  have hp : (0 : ℝ) < 2 ^ z := by positivity
  have hp' : (2 : ℝ) ^ z ≤ 2 ^ 44 := pow_le_pow_right₀ (by norm_num) hz
  have u1 : (w : ℝ) / 2 ^ z ≤ (y + 2 ^ z * (1 / 2 ^ 45)) / 2 ^ z := by
    have : (y + 2 ^ z * (1 / 2 ^ 45) : ℝ) / 2 ^ z = y / 2 ^ z + 1 / 2 ^ 45 := by field_simp
    rw [this]
    norm_num at a w1 ⊢
    linarith [a.2]
  have u2 : (y - 2 ^ z * (1 / 2 ^ 45) : ℝ) / 2 ^ z ≤ (w + 1 : ℝ) / 2 ^ z := by
    have : (y - 2 ^ z * (1 / 2 ^ 45) : ℝ) / 2 ^ z = y / 2 ^ z - 1 / 2 ^ 45 := by field_simp
    rw [this]
    norm_num at a w2 ⊢
    linarith [a.1]
  have v1 := (div_le_div_iff_of_pos_right hp).1 u1
  have v2 := (div_le_div_iff_of_pos_right hp).1 u2
  have k1 : (w : ℝ) < y + 1 := by norm_num at hp' v1; linarith
  have k2 : (y : ℝ) - 1 < w + 1 := by norm_num at hp' v2; linarith
  have k1' : w < y + 1 := by exact_mod_cast k1
  have k2' : y - 1 < w + 1 := by exact_mod_cast k2
  rcases (by omega : w = y ∨ w = y - 1) with h | h
  · left; rw [h]
  · right; rw [h]

/-- **C184 (equator).** The corners on the equator are exact. -/
theorem C184_equator (R : Rounding) {H : Hyp} (hH : H.Accurate) (P : ℚ) (z : Nat) (hz : z ≤ 49) : nwLatF R H P (z + 1) (2 ^ z) = 0 := by
  have e := part_exact R (z := z + 1) (by omega) (y := 2 ^ z) (by positivity) (by rw [pow_succ]; have : (0 : ℤ) < 2 ^ z := by positivity
                                                                                  omega)
  have s : H.sinh 0 = 0 := by
    have := hH.sinh_err 0
    simp at this
    exact this
  have a : H.atan 0 = 0 := by
    have := hH.atan_err 0
    simp at this
    exact this
  have q : (1 - 2 * ((2 ^ z : ℤ) : ℚ) / 2 ^ (z + 1)) = 0 := by push_cast; rw [pow_succ]; field_simp; ring
  unfold nwLatF
  rw [e, q, mul_zero, R.zero, s, a, zero_mul, R.zero, zero_div, R.zero]

/-! ### Non-vacuity -/

/-- A library that meets the conditions. -/
noncomputable def someHyp : Hyp := ⟨fun x => SphereF.near (Real.sinh x), fun x => SphereF.near (Real.arctan x)⟩

theorem someHyp_accurate : someHyp.Accurate := by
  have a : ∀ r : ℝ, |(SphereF.near r : ℝ) - r| ≤ 1 / 2 ^ 52 * |r| := fun r =>
    (SphereF.near_spec r).1.trans (mul_le_mul_of_nonneg_right (by norm_num) (abs_nonneg r))
  exact ⟨fun x => a _, fun x => a _⟩

example : (bboxLatF double someHyp piD 10 357).1 < (bboxLatF double someHyp piD 10 357).2 :=
  C184_order double someHyp_accurate piD_like (by norm_num) (by norm_num) (by norm_num)

example : tileRowF double someLib piD (nwLatF double someHyp piD 10 357) 10 = .ok 357 ∨
    tileRowF double someLib piD (nwLatF double someHyp piD 10 357) 10 = .ok 356 :=
  C184_lookup_partial double someHyp_accurate someLib_accurate piD_like (by norm_num) (by norm_num) (by norm_num)

end Karta.Float.TileCorner
