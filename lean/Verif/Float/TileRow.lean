import Verif.Float.SphereDist
import Verif.Float.Tile
import Verif.Geod.TileProps
import Mathlib.Analysis.SpecialFunctions.Arsinh
import Mathlib.Analysis.SpecialFunctions.Trigonometric.Bounds
import Mathlib.Analysis.Real.Pi.Bounds
import Mathlib.Analysis.Complex.ExponentialBounds

/-!
# Rows of tiles in floating point

Model of the rows of web-map tiles (karta/tile.py 66-78) with rounded arithmetic, and property C183.
-/

namespace Karta.Float.TileRow
open Karta Karta.Float Karta.Tile

/-! ### Model -/

/-- `math.tan` and `math.log`. -/
structure Lib where
  tan : ℚ → ℚ
  log : ℚ → ℚ

/-- The angle `math.pi/4+lat0*math.pi/360` for `math.pi = P` (tile.py 74). -/
def angleF (R : Rounding) (P lat : ℚ) : ℚ := R.fl (R.fl (P / 4) + R.fl (R.fl (lat * P) / 360))

/-- `tile_from_point`, row (tile.py 66-78), for `math.pi = P`: `c = 128/math.pi * 2**z`,
`y0 = c * (math.pi-math.log(math.tan(math.pi/4+lat0*math.pi/360)))`, `y = int(y0 // dlat)`.  `math.log` raises ValueError unless its
argument is positive.  The division by 256 in `//` is exact and rounds down.  The latitude is that of a geographical system; the
projection of other systems is not modelled. -/
def tileRowF (R : Rounding) (T : Lib) (P lat : ℚ) (z : Nat) : Except Err Int :=
  let c := R.fl (R.fl (128 / P) * 2 ^ z)
  let t := T.tan (angleF R P lat)
  if t ≤ 0 then .error .valueError
  else .ok ⌊R.fl (c * R.fl (P - T.log t)) / 256⌋

/-! ### Assumptions -/

/-- The library is accurate to a unit in the last of 53 places. -/
structure Lib.Accurate (T : Lib) : Prop where
  tan_err : ∀ x : ℚ, |(T.tan x : ℝ) - Real.tan x| ≤ 1 / 2 ^ 52 * |Real.tan x|
  log_err : ∀ x : ℚ, 0 < x → |(T.log x : ℝ) - Real.log x| ≤ 1 / 2 ^ 52 * |Real.log x|

/-- `P` is next to π. -/
def PiLike (P : ℚ) : Prop := |(P : ℝ) - Real.pi| ≤ 1 / 2 ^ 52

/-! ### Specification -/

/-- How far down the square map in the Mercator projection a latitude (degrees) is, as a part of the height of the map. -/
noncomputable def down (lat : ℝ) : ℝ := (1 - Real.arsinh (Real.tan (lat * Real.pi / 180)) / Real.pi) / 2

/-! ### Errors -/

theorem piD_like : PiLike piD := by
  unfold PiLike piD
  have h1 := Real.pi_gt_d20
  have h2 := Real.pi_lt_d20
  rw [abs_le]
  push_cast
  constructor <;> norm_num at h1 h2 ⊢ <;> linarith

theorem angle_err (R : Rounding) {P lat : ℚ} (hP : PiLike P) (h : |(lat : ℝ)| ≤ 86) :
    |((angleF R P lat : ℚ) : ℝ) - (Real.pi / 4 + lat * Real.pi / 360)| ≤ 1 / 2 ^ 50 := by
  have p1 := Real.pi_gt_d2
  have p2 := Real.pi_lt_d2
  have hP' := abs_le.1 hP
  have P1 : (3 : ℝ) ≤ P := by norm_num at hP' p1 p2 ⊢; linarith [hP'.1]
  have P2 : (P : ℝ) ≤ 16 / 5 := by norm_num at hP' p1 p2 ⊢; linarith [hP'.2]
  unfold angleF
  have a := SphereF.flr R (P / 4)
  have b1 := SphereF.flr R (lat * P)
  have b := SphereF.flr R (R.fl (lat * P) / 360)
  have s := SphereF.flr R (R.fl (P / 4) + R.fl (R.fl (lat * P) / 360))
  push_cast at a b1 b s ⊢
  generalize ((R.fl (R.fl (P / 4) + R.fl (R.fl (lat * P) / 360)) : ℚ) : ℝ) = S at *
  generalize ((R.fl (R.fl (lat * P) / 360) : ℚ) : ℝ) = B at *
  generalize ((R.fl (lat * P) : ℚ) : ℝ) = B1 at *
  generalize ((R.fl (P / 4) : ℚ) : ℝ) = A at *
  have lp : |(lat : ℝ) * P| ≤ 276 := by
    rw [abs_mul, abs_of_nonneg (a := (P : ℝ)) (by linarith)]
    nlinarith [abs_nonneg (lat : ℝ)]
  have dp : |(lat : ℝ) * P / 360 - lat * Real.pi / 360| ≤ 1 / 4 * (1 / 2 ^ 52) := by
    rw [show (lat : ℝ) * P / 360 - lat * Real.pi / 360 = lat / 360 * (P - Real.pi) by ring, abs_mul]
    refine mul_le_mul ?_ hP (abs_nonneg _) (by norm_num)
    rw [abs_div, abs_of_pos (a := (360 : ℝ)) (by norm_num)]
    linarith
  have a' : |A - P / 4| ≤ 1 / 2 ^ 53 * 1 := by
    refine a.trans (mul_le_mul_of_nonneg_left ?_ (by norm_num))
    rw [abs_of_nonneg (by linarith)]; linarith
  have b1' : |B1 - lat * P| ≤ 1 / 2 ^ 53 * 276 := b1.trans (mul_le_mul_of_nonneg_left lp (by norm_num))
  have b1s : |B1 / 360| ≤ 1 := by
    rw [abs_le] at b1' lp ⊢
    norm_num at b1' lp ⊢
    constructor <;> linarith [b1'.1, b1'.2, lp.1, lp.2]
  have b' : |B - B1 / 360| ≤ 1 / 2 ^ 53 * 1 := b.trans (mul_le_mul_of_nonneg_left b1s (by norm_num))
  have ab : |A + B| ≤ 2 := by
    rw [abs_le] at a' b' b1' lp ⊢
    norm_num at a' b' b1' lp ⊢
    constructor <;> linarith [a'.1, a'.2, b'.1, b'.2, b1'.1, b1'.2, lp.1, lp.2]
  have s' : |S - (A + B)| ≤ 1 / 2 ^ 53 * 2 := s.trans (mul_le_mul_of_nonneg_left ab (by norm_num))
  rw [abs_le] at a' b' b1' s' dp ⊢
  norm_num at a' b' b1' s' dp hP' ⊢
  constructor <;> linarith [a'.1, a'.2, b'.1, b'.2, b1'.1, b1'.2, s'.1, s'.2, dp.1, dp.2, hP'.1, hP'.2]

/-- Angles that are not next to 0 or a quarter of a circle. -/
def Mid (x : ℝ) : Prop := 1 / 32 ≤ x ∧ x ≤ Real.pi / 2 - 1 / 32

theorem sin_ge {x : ℝ} (h1 : 1 / 32 ≤ x) (h2 : x ≤ Real.pi - 1 / 32) : 1 / 52 ≤ Real.sin x := by
  have p1 := Real.pi_gt_three
  have p2 := Real.pi_lt_d2
  have key : ∀ y : ℝ, 1 / 32 ≤ y → y ≤ Real.pi / 2 → 1 / 52 ≤ Real.sin y := by
    intro y hy hy'
    have := Real.mul_le_sin (by linarith) hy'
    refine le_trans ?_ this
    rw [div_mul_eq_mul_div, le_div_iff₀ (by linarith)]
    norm_num at p2 ⊢
    linarith
  by_cases h : x ≤ Real.pi / 2
  · exact key x h1 h
  · rw [← Real.sin_pi_sub]
    exact key _ (by linarith) (by linarith)

theorem sin_ge2 {x : ℝ} (h1 : 1 / 16 ≤ x) (h2 : x ≤ Real.pi - 1 / 16) : 1 / 26 ≤ Real.sin x := by
  have p1 := Real.pi_gt_three
  have p2 := Real.pi_lt_d2
  have key : ∀ y : ℝ, 1 / 16 ≤ y → y ≤ Real.pi / 2 → 1 / 26 ≤ Real.sin y := by
    intro y hy hy'
    have := Real.mul_le_sin (by linarith) hy'
    refine le_trans ?_ this
    rw [div_mul_eq_mul_div, le_div_iff₀ (by linarith)]
    norm_num at p2 ⊢
    linarith
  by_cases h : x ≤ Real.pi / 2
  · exact key x h1 h
  · rw [← Real.sin_pi_sub]
    exact key _ (by linarith) (by linarith)

theorem Mid.pos {x : ℝ} (h : Mid x) : 1 / 52 ≤ Real.sin x ∧ 1 / 52 ≤ Real.cos x := by
  obtain ⟨h1, h2⟩ := h
  have p1 := Real.pi_gt_three
  refine ⟨sin_ge h1 (by linarith), ?_⟩
  rw [← Real.sin_pi_div_two_sub]
  exact sin_ge (by linarith) (by linarith)

theorem Mid.tan_pos {x : ℝ} (h : Mid x) : 0 < Real.tan x := by
  obtain ⟨h1, h2⟩ := h.pos
  rw [Real.tan_eq_sin_div_cos]
  exact div_pos (by linarith) (by linarith)

theorem Mid.log_tan {x : ℝ} (h : Mid x) : |Real.log (Real.tan x)| ≤ 4 := by
  obtain ⟨h1, h2⟩ := h.pos
  have e4 : (52 : ℝ) ≤ Real.exp 4 := by
    have := Real.exp_one_gt_d9
    have e : Real.exp 4 = Real.exp 1 ^ 4 := by rw [← Real.exp_nat_mul]; norm_num
    rw [e]
    calc (52 : ℝ) ≤ 2.7 ^ 4 := by norm_num
      _ ≤ _ := pow_le_pow_left₀ (by norm_num) (by linarith) 4
  have up : ∀ s c : ℝ, 1 / 52 ≤ c → 0 < s → s ≤ 1 → Real.log (s / c) ≤ 4 := by
    intro s c hc hs hs'
    rw [← Real.log_exp 4]
    apply Real.log_le_log (div_pos hs (by linarith))
    refine le_trans ?_ e4
    rw [div_le_iff₀ (by linarith)]
    linarith
  rw [abs_le, Real.tan_eq_sin_div_cos]
  constructor
  · have := up (Real.cos x) (Real.sin x) h1 (by linarith) (Real.cos_le_one x)
    rw [← inv_div, Real.log_inv] at this
    linarith
  · exact up _ _ h2 (by linarith) (Real.sin_le_one x)

theorem log_tan_le {a b : ℝ} (ha : Mid a) (hb : Mid b) (hab : b ≤ a) (hd : a - b ≤ 1 / 2 ^ 50) :
    0 ≤ Real.log (Real.tan a) - Real.log (Real.tan b) ∧ Real.log (Real.tan a) - Real.log (Real.tan b) ≤ 53 * (a - b) := by
  obtain ⟨sa, ca⟩ := ha.pos
  obtain ⟨sb, cb⟩ := hb.pos
  have ta := ha.tan_pos
  have tb := hb.tan_pos
  have p1 := Real.pi_gt_three
  have s0 : 0 ≤ Real.sin (a - b) := Real.sin_nonneg_of_nonneg_of_le_pi (by linarith) (by norm_num at hd; linarith)
  have s1 : Real.sin (a - b) ≤ a - b := Real.sin_le (by linarith)
  have e : Real.tan a / Real.tan b - 1 = Real.sin (a - b) / (Real.cos a * Real.sin b) := by
    rw [Real.tan_eq_sin_div_cos, Real.tan_eq_sin_div_cos, Real.sin_sub]
    have h1 : Real.cos a ≠ 0 := by linarith
    have h2 : Real.cos b ≠ 0 := by linarith
    have h3 : Real.sin b ≠ 0 := by linarith
    field_simp
  have pr : 1 / 53 ≤ Real.cos a * Real.sin b := by
    have h1 : Real.cos a * Real.sin b = (Real.sin (a + b) - Real.sin (a - b)) / 2 := by rw [Real.sin_add, Real.sin_sub]; ring
    have h2 := sin_ge2 (x := a + b) (by linarith [ha.1, hb.1]) (by linarith [ha.2, hb.2])
    rw [h1]
    norm_num at hd ⊢
    linarith
  rw [← Real.log_div ta.ne' tb.ne']
  have q0 : 0 ≤ Real.sin (a - b) / (Real.cos a * Real.sin b) := div_nonneg s0 (by linarith)
  constructor
  · apply Real.log_nonneg
    linarith
  · have := Real.log_le_sub_one_of_pos (div_pos ta tb)
    rw [e] at this
    refine this.trans ?_
    rw [div_le_iff₀ (by linarith)]
    nlinarith

theorem log_tan_near {a b : ℝ} (ha : Mid a) (hb : Mid b) (hd : |a - b| ≤ 1 / 2 ^ 50) :
    |Real.log (Real.tan a) - Real.log (Real.tan b)| ≤ 53 / 2 ^ 50 := by
  rw [abs_le] at hd ⊢
  rcases le_total b a with h | h
  · have := log_tan_le ha hb h hd.2
    norm_num at hd this ⊢
    constructor <;> linarith [this.1, this.2]
  · have := log_tan_le hb ha h (by linarith [hd.1])
    norm_num at hd this ⊢
    constructor <;> linarith [this.1, this.2]

theorem mid_angle {lat : ℝ} (h : |lat| ≤ 86) : 1 / 30 ≤ Real.pi / 4 + lat * Real.pi / 360 ∧
    Real.pi / 4 + lat * Real.pi / 360 ≤ Real.pi / 2 - 1 / 30 := by
  have p1 := Real.pi_gt_three
  rw [abs_le] at h
  constructor <;> nlinarith

theorem merc_eq {lat : ℝ} (h1 : -90 < lat) (h2 : lat < 90) : merc lat = Real.arsinh (Real.tan (lat * Real.pi / 180)) := by
  rw [← merc_spec h1 h2, Real.arsinh_sinh]

/-- The logarithm that is computed, and that its argument is positive. -/
theorem log_err (R : Rounding) {T : Lib} (hT : T.Accurate) {P lat : ℚ} (hP : PiLike P) (h : |(lat : ℝ)| ≤ 86) :
    0 < T.tan (angleF R P lat) ∧ |((T.log (T.tan (angleF R P lat)) : ℚ) : ℝ) - merc lat| ≤ 55 / 2 ^ 50 := by
  have p1 := Real.pi_gt_three
  have ae := angle_err R hP h
  obtain ⟨m1, m2⟩ := mid_angle h
  have mid : Mid (Real.pi / 4 + lat * Real.pi / 360) := ⟨by linarith, by linarith⟩
  have mid' : Mid ((angleF R P lat : ℚ) : ℝ) := by
    have := abs_le.1 ae
    norm_num at this m1 m2
    constructor <;> norm_num <;> linarith [this.1, this.2]
  have d := log_tan_near mid' mid ae
  have tp := mid'.tan_pos
  have te := hT.tan_err (angleF R P lat)
  rw [abs_of_pos tp] at te
  generalize hx : Real.tan ((angleF R P lat : ℚ) : ℝ) = x at *
  have te' := abs_le.1 te
  have tpos : (0 : ℝ) < (T.tan (angleF R P lat) : ℚ) := by norm_num at te'; linarith [te'.1]
  have tposq : 0 < T.tan (angleF R P lat) := by exact_mod_cast tpos
  refine ⟨tposq, ?_⟩
  have le := hT.log_err _ tposq
  generalize (T.tan (angleF R P lat)) = t at *
  have lr : |Real.log t - Real.log x| ≤ 1 / 2 ^ 51 := by
    rw [← Real.log_div tpos.ne' tp.ne']
    have r0 : 0 < (t : ℝ) / x := div_pos tpos tp
    have r1 : (t : ℝ) / x ≤ 1 + 1 / 2 ^ 52 := by rw [div_le_iff₀ tp]; linarith [te'.2]
    have r2 : 1 - 1 / 2 ^ 52 ≤ (t : ℝ) / x := by rw [le_div_iff₀ tp]; linarith [te'.1]
    have u := Real.log_le_sub_one_of_pos r0
    have l := Real.one_sub_inv_le_log_of_pos r0
    have i : ((t : ℝ) / x)⁻¹ ≤ 1 + 1 / 2 ^ 51 := by
      rw [inv_le_comm₀ r0 (by norm_num)]
      refine le_trans ?_ r2
      norm_num
    rw [abs_le]
    norm_num at u l i r1 r2 ⊢
    constructor <;> linarith
  have lb := mid'.log_tan
  rw [hx] at lb
  have lt : |Real.log t| ≤ 5 := by
    rw [abs_le] at lr lb ⊢
    norm_num at lr lb
    constructor <;> linarith [lr.1, lr.2, lb.1, lb.2]
  have le' : |((T.log t : ℚ) : ℝ) - Real.log t| ≤ 1 / 2 ^ 52 * 5 := le.trans (mul_le_mul_of_nonneg_left lt (by norm_num))
  change |_ - Real.log (Real.tan (Real.pi / 4 + lat * Real.pi / 360))| ≤ _
  rw [abs_le] at le' lr d ⊢
  norm_num at le' lr d ⊢
  constructor <;> linarith [le'.1, le'.2, lr.1, lr.2, d.1, d.2]

theorem merc_bound {lat : ℝ} (h : |lat| ≤ 86) : |merc lat| ≤ 4 := by
  obtain ⟨m1, m2⟩ := mid_angle h
  exact Mid.log_tan ⟨by linarith, by linarith⟩

/-- The position on the map before rounding down. -/
theorem row_err (R : Rounding) {T : Lib} (hT : T.Accurate) {P lat : ℚ} (hP : PiLike P) (h : |(lat : ℝ)| ≤ 86) (z : Nat) :
    |((R.fl (R.fl (R.fl (128 / P) * 2 ^ z) * R.fl (P - T.log (T.tan (angleF R P lat)))) / 256 : ℚ) : ℝ) - 2 ^ z * down lat|
      ≤ 2 ^ z / 2 ^ 46 := by
  have p1 := Real.pi_gt_d2
  have p2 := Real.pi_lt_d2
  have hP' := abs_le.1 hP
  have P1 : (3 : ℝ) ≤ P := by norm_num at hP' p1 p2 ⊢; linarith [hP'.1]
  have P2 : (P : ℝ) ≤ 16 / 5 := by norm_num at hP' p1 p2 ⊢; linarith [hP'.2]
  obtain ⟨_, le⟩ := log_err R hT hP h
  have mb := merc_bound h
  have dn : down lat = (Real.pi - merc lat) / (2 * Real.pi) := by
    have h' := abs_le.1 h
    unfold down
    rw [← merc_eq (by linarith [h'.1]) (by linarith [h'.2])]
    field_simp
  rw [dn]
  generalize merc (lat : ℝ) = m at *
  generalize hL : T.log (T.tan (angleF R P lat)) = L at *
  have w := SphereF.flr R (P - L)
  generalize hW : R.fl (P - L) = W at *
  have w' : |(W : ℝ) - (Real.pi - m)| ≤ 57 / 2 ^ 50 := by
    have b : |((P - L : ℚ) : ℝ)| ≤ 8 := by
      push_cast
      rw [abs_le] at le mb ⊢
      norm_num at le mb ⊢
      constructor <;> linarith [le.1, le.2, mb.1, mb.2]
    have w2 := w.trans (mul_le_mul_of_nonneg_left b (by norm_num))
    push_cast at w2
    rw [abs_le] at w2 le ⊢
    norm_num at w2 le hP' ⊢
    constructor <;> linarith [w2.1, w2.2, le.1, le.2, hP'.1, hP'.2]
  obtain ⟨d1, b1, e1⟩ := R.rel (128 / P)
  rw [e1]
  obtain ⟨d2, b2, e2⟩ := R.rel (128 / P * (1 + d1) * 2 ^ z)
  rw [e2]
  obtain ⟨d3, b3, e3⟩ := R.rel (128 / P * (1 + d1) * 2 ^ z * (1 + d2) * W)
  rw [e3]
  have one : ∀ d : ℚ, |d| ≤ 1 / 2 ^ 53 → |(1 + d) - 1| ≤ 1 / 2 ^ 53 := by
    intro d hd
    rwa [add_sub_cancel_left]
  have hA : |((1 + d1) * (1 + d2)) * (1 + d3) - 1| ≤ 4 / 2 ^ 53 :=
    (prod_err ((prod_err (one d1 b1) (one d2 b2)).trans (show _ ≤ (9 : ℚ) / 4 / 2 ^ 53 by norm_num)) (one d3 b3)).trans (by norm_num)
  have hA' : |(((1 + d1) * (1 + d2) * (1 + d3) : ℚ) : ℝ) - 1| ≤ 4 / 2 ^ 53 := by
    have := (Rat.cast_le (K := ℝ)).2 hA
    push_cast at this ⊢
    exact this
  generalize hAd : ((1 + d1) * (1 + d2)) * (1 + d3) = A at hA hA'
  have hpi : (0 : ℝ) < Real.pi := Real.pi_pos
  have hP0 : (0 : ℝ) < P := by linarith
  have key : ((128 / P * (1 + d1) * 2 ^ z * (1 + d2) * W * (1 + d3) / 256 : ℚ) : ℝ) - 2 ^ z * ((Real.pi - m) / (2 * Real.pi)) =
      2 ^ z / 2 * (((A - 1) * W * Real.pi + (W - (Real.pi - m)) * Real.pi + (Real.pi - m) * (Real.pi - P)) / (P * Real.pi)) := by
    rw [← hAd]
    push_cast
    field_simp
    ring
  rw [key, abs_mul, abs_of_pos (by positivity : (0 : ℝ) < 2 ^ z / 2)]
  have fin : |((A - 1) * W * Real.pi + (W - (Real.pi - m)) * Real.pi + (Real.pi - m) * (Real.pi - P)) / (P * Real.pi)| ≤ 2 / 2 ^ 46 := by
    have v : |Real.pi - m| ≤ 8 := by
      rw [abs_le] at mb ⊢
      norm_num at p1 p2
      constructor <;> linarith [mb.1, mb.2]
    have wb : |(W : ℝ)| ≤ 9 := by
      rw [abs_le] at w' v ⊢
      norm_num at w'
      constructor <;> linarith [w'.1, w'.2, v.1, v.2]
    have t1 : |(A - 1) * W * Real.pi| ≤ 4 / 2 ^ 53 * 9 * Real.pi := by
      rw [abs_mul, abs_mul, abs_of_pos hpi]
      exact mul_le_mul_of_nonneg_right (mul_le_mul hA' wb (abs_nonneg _) (by norm_num)) hpi.le
    have t2 : |(W - (Real.pi - m)) * Real.pi| ≤ 57 / 2 ^ 50 * Real.pi := by
      rw [abs_mul, abs_of_pos hpi]
      exact mul_le_mul_of_nonneg_right w' hpi.le
    have t3 : |(Real.pi - m) * (Real.pi - P)| ≤ 8 * (1 / 2 ^ 52) := by
      rw [abs_mul]
      refine mul_le_mul v ?_ (abs_nonneg _) (by norm_num)
      rw [abs_sub_comm]; exact hP
    have t4 := abs_add_three ((A - 1) * W * Real.pi) ((W - (Real.pi - m)) * Real.pi) ((Real.pi - m) * (Real.pi - P))
    rw [abs_div, abs_of_pos (mul_pos hP0 hpi), div_le_iff₀ (mul_pos hP0 hpi)]
    refine t4.trans ?_
    have t5 : 3 * Real.pi ≤ P * Real.pi := mul_le_mul_of_nonneg_right P1 hpi.le
    norm_num at t1 t2 t3 p1 ⊢
    linarith
  calc (2 : ℝ) ^ z / 2 * _ ≤ 2 ^ z / 2 * (2 / 2 ^ 46) := mul_le_mul_of_nonneg_left fin (by positivity)
    _ = 2 ^ z / 2 ^ 46 := by ring

/-! ### Theorems -/

theorem row_ok (R : Rounding) {T : Lib} (hT : T.Accurate) {P lat : ℚ} (hP : PiLike P) (h : |(lat : ℝ)| ≤ 86) (z : Nat) :
    tileRowF R T P lat z = .ok ⌊R.fl (R.fl (R.fl (128 / P) * 2 ^ z) * R.fl (P - T.log (T.tan (angleF R P lat)))) / 256⌋ := by
  have := (log_err R hT hP h).1
  unfold tileRowF
  dsimp only
  rw [if_neg (by linarith)]

/-- **C183 (nearby).** For all latitudes on the map a row is returned, and the row contains the latitude up to `1/2^46` of the height of
the map (some 0.6 micrometres on the equator). -/
theorem C183_near (R : Rounding) {T : Lib} (hT : T.Accurate) {P lat : ℚ} (hP : PiLike P) (h : |(lat : ℝ)| ≤ 86) (z : Nat) :
    ∃ y : Int, tileRowF R T P lat z = .ok y ∧ (y : ℝ) / 2 ^ z - 1 / 2 ^ 46 ≤ down lat ∧ down lat ≤ (y + 1 : ℝ) / 2 ^ z + 1 / 2 ^ 46 := by
  refine ⟨_, row_ok R hT hP h z, ?_⟩
  have e := row_err R hT hP h z
  generalize R.fl (R.fl (R.fl (128 / P) * 2 ^ z) * R.fl (P - T.log (T.tan (angleF R P lat)))) / 256 = q at *
  have f1 : ((⌊q⌋ : ℤ) : ℝ) ≤ q := by exact_mod_cast Int.floor_le q
  have f2 : (q : ℝ) < (⌊q⌋ : ℤ) + 1 := by exact_mod_cast Int.lt_floor_add_one q
  have hz : (0 : ℝ) < 2 ^ z := by positivity
  rw [abs_le] at e
  have e2 : (2 : ℝ) ^ z / 2 ^ 46 = 2 ^ z * (1 / 2 ^ 46) := by ring
  rw [e2] at e
  constructor
  · rw [sub_le_iff_le_add, div_le_iff₀ hz]
    nlinarith [e.1, e.2]
  · rw [← sub_le_iff_le_add, le_div_iff₀ hz]
    nlinarith [e.1, e.2]

/-- **C183 (partial).** Full statement: with doubles, the row looked up for a latitude is the one the latitude lies in.  Proved for all zoom
levels and all latitudes that are at least `1/2^46` of the height of the map inside the borders of the row.  Missing because false (`C183_violated_border`): latitudes closer to a
border. -/
theorem C183_inside_partial (R : Rounding) {T : Lib} (hT : T.Accurate) {P lat : ℚ} (hP : PiLike P) (h : |(lat : ℝ)| ≤ 86) (z : Nat) (y : Int)
    (h1 : (y : ℝ) / 2 ^ z + 1 / 2 ^ 46 ≤ down lat) (h2 : down lat < (y + 1 : ℝ) / 2 ^ z - 1 / 2 ^ 46) : tileRowF R T P lat z = .ok y := by
  rw [row_ok R hT hP h z]
  have e := row_err R hT hP h z
  generalize R.fl (R.fl (R.fl (128 / P) * 2 ^ z) * R.fl (P - T.log (T.tan (angleF R P lat)))) / 256 = q at *
  have hz : (0 : ℝ) < 2 ^ z := by positivity
  rw [abs_le] at e
  have e2 : (2 : ℝ) ^ z / 2 ^ 46 = 2 ^ z * (1 / 2 ^ 46) := by ring
  rw [e2] at e
  rw [← le_sub_iff_add_le, div_le_iff₀ hz] at h1
  rw [lt_sub_iff_add_lt, lt_div_iff₀ hz] at h2
  congr 1
  rw [Int.floor_eq_iff]
  constructor
  · have : (y : ℝ) ≤ q := by nlinarith [e.1, e.2]
    exact_mod_cast this
  · have : (q : ℝ) < y + 1 := by nlinarith [e.1, e.2]
    exact_mod_cast this

/-- **C183 (order).** If `tan` and `log` keep the order, points further south are never looked up in rows further north. -/
theorem C183_order (R : Rounding) {T : Lib} (hT : T.Accurate) {P lat lat' : ℚ} (hP : PiLike P)
    (ht : ∀ x x' : ℚ, 0 < x → x ≤ x' → (x' : ℝ) < Real.pi / 2 → T.tan x ≤ T.tan x') (hl : ∀ x x' : ℚ, 0 < x → x ≤ x' → T.log x ≤ T.log x')
    (h : |(lat : ℝ)| ≤ 86) (h' : |(lat' : ℝ)| ≤ 86) (hle : lat ≤ lat') (z : Nat) :
    ∃ y y' : Int, tileRowF R T P lat z = .ok y ∧ tileRowF R T P lat' z = .ok y' ∧ y' ≤ y := by
  refine ⟨_, _, row_ok R hT hP h z, row_ok R hT hP h' z, ?_⟩
  have p1 := Real.pi_gt_three
  have P0 : (0 : ℚ) < P := by
    have := (abs_le.1 hP).1
    have : (0 : ℝ) < P := by norm_num at this; linarith
    exact_mod_cast this
  have a1 := abs_le.1 (angle_err R hP h)
  have a2 := abs_le.1 (angle_err R hP h')
  obtain ⟨m1, _⟩ := mid_angle h
  obtain ⟨_, m2⟩ := mid_angle h'
  have x0 : 0 < angleF R P lat := by
    have : (0 : ℝ) < (angleF R P lat : ℚ) := by norm_num at a1 m1; linarith [a1.1]
    exact_mod_cast this
  have x1 : ((angleF R P lat' : ℚ) : ℝ) < Real.pi / 2 := by norm_num at a2 m2; linarith [a2.2]
  have xx : angleF R P lat ≤ angleF R P lat' := by
    unfold angleF
    apply R.mono
    have : R.fl (R.fl (lat * P) / 360) ≤ R.fl (R.fl (lat' * P) / 360) :=
      R.mono (div_le_div_of_nonneg_right (R.mono (mul_le_mul_of_nonneg_right hle P0.le)) (by norm_num))
    linarith
  have tt := ht _ _ x0 xx x1
  have ll := hl _ _ (log_err R hT hP h).1 tt
  apply Int.floor_le_floor
  apply div_le_div_of_nonneg_right _ (by norm_num)
  apply R.mono
  apply mul_le_mul_of_nonneg_left
  · apply R.mono
    linarith
  · exact R.nonneg (mul_nonneg (R.nonneg (by positivity)) (by positivity))

/-- **C183**: off the map there may be no row: looking up the south pole raises ValueError. -/
theorem C183_south_pole {T : Lib} (hT : T.Accurate) (z : Nat) : tileRowF double T piD (-90) z = .error .valueError := by
  have a : angleF double piD (-90) = 0 := by decide +kernel
  have t : T.tan 0 = 0 := by
    have := hT.tan_err 0
    simp at this
    exact this
  unfold tileRowF
  rw [a, t]
  rfl

/-! ### Non-vacuity -/

/-- A library that meets the conditions. -/
noncomputable def someLib : Lib := ⟨fun x => SphereF.near (Real.tan x), fun x => SphereF.near (Real.log x)⟩

theorem someLib_accurate : someLib.Accurate := by
  have a : ∀ r : ℝ, |(SphereF.near r : ℝ) - r| ≤ 1 / 2 ^ 52 * |r| := fun r =>
    (SphereF.near_spec r).1.trans (mul_le_mul_of_nonneg_right (by norm_num) (abs_nonneg r))
  exact ⟨fun x => a _, fun x _ => a _⟩

/-- 45 degrees north is in the upper half of the map. -/
example : tileRowF double someLib piD 45 1 = .ok 0 := by
  have p1 := Real.pi_gt_three
  have t : Real.tan ((45 : ℚ) * Real.pi / 180) = 1 := by
    rw [show ((45 : ℚ) : ℝ) * Real.pi / 180 = Real.pi / 4 by push_cast; ring, Real.tan_pi_div_four]
  have up : Real.arsinh 1 ≤ 1 := by
    rw [← Real.sinh_le_sinh, Real.sinh_arsinh]
    exact Real.self_le_sinh_iff.2 (by norm_num)
  have lo : 1 / 2 ≤ Real.arsinh 1 := by
    rw [← Real.sinh_le_sinh, Real.sinh_arsinh, Real.sinh_eq]
    have h1 := Real.exp_pos (-(1 / 2 : ℝ))
    have h2 : Real.exp (1 / 2) ≤ 2 := by
      have h3 := Real.exp_one_lt_d9
      have h4 : Real.exp 1 = Real.exp (1 / 2) * Real.exp (1 / 2) := by rw [← Real.exp_add]; norm_num
      by_contra hc
      nlinarith
    linarith
  apply C183_inside_partial double someLib_accurate piD_like (by norm_num)
  · unfold down
    rw [t]
    have : Real.arsinh 1 / Real.pi ≤ 1 / 2 := by rw [div_le_iff₀ (by linarith)]; linarith
    norm_num
    linarith
  · unfold down
    rw [t]
    have p2 := Real.pi_lt_d2
    have : 1 / 8 ≤ Real.arsinh 1 / Real.pi := by rw [le_div_iff₀ (by linarith)]; norm_num at p2; linarith
    norm_num
    linarith

/-! ### Where the lookup fails -/

theorem taylor12 {x : ℝ} (hx : |x| ≤ 1) :
    |Real.cos x - (1 - x ^ 2 / 2 + x ^ 4 / 24 - x ^ 6 / 720 + x ^ 8 / 40320 - x ^ 10 / 3628800)| ≤ |x| ^ 12 * (13 / 5748019200) ∧
    |Real.sin x - (x - x ^ 3 / 6 + x ^ 5 / 120 - x ^ 7 / 5040 + x ^ 9 / 362880 - x ^ 11 / 39916800)| ≤ |x| ^ 12 * (13 / 5748019200) := by
  have h := Complex.exp_bound (x := (x : ℂ) * Complex.I) (by simpa using hx) (n := 12) (by norm_num)
  have hn : ‖(x : ℂ) * Complex.I‖ = |x| := by simp
  have e : Complex.exp ((x : ℂ) * Complex.I) - ∑ m ∈ Finset.range 12, ((x : ℂ) * Complex.I) ^ m / (m.factorial : ℂ) =
      ⟨Real.cos x - (1 - x ^ 2 / 2 + x ^ 4 / 24 - x ^ 6 / 720 + x ^ 8 / 40320 - x ^ 10 / 3628800),
        Real.sin x - (x - x ^ 3 / 6 + x ^ 5 / 120 - x ^ 7 / 5040 + x ^ 9 / 362880 - x ^ 11 / 39916800)⟩ := by
    have h2 : Complex.I ^ 2 = -1 := Complex.I_sq
    have h3 : Complex.I ^ 3 = -Complex.I := Complex.I_pow_three
    have h4 : Complex.I ^ 4 = 1 := Complex.I_pow_four
    have h5 : Complex.I ^ 5 = Complex.I := by rw [pow_succ, h4, one_mul]
    have h6 : Complex.I ^ 6 = -1 := by rw [show 6 = 4 + 2 by norm_num, pow_add, h4, h2, one_mul]
    have h7 : Complex.I ^ 7 = -Complex.I := by rw [show 7 = 4 + 3 by norm_num, pow_add, h4, h3, one_mul]
    have h8 : Complex.I ^ 8 = 1 := by rw [show 8 = 4 + 4 by norm_num, pow_add, h4, one_mul]
    have h9 : Complex.I ^ 9 = Complex.I := by rw [pow_succ, h8, one_mul]
    have h10 : Complex.I ^ 10 = -1 := by rw [show 10 = 8 + 2 by norm_num, pow_add, h8, h2, one_mul]
    have h11 : Complex.I ^ 11 = -Complex.I := by rw [show 11 = 8 + 3 by norm_num, pow_add, h8, h3, one_mul]
    rw [Complex.exp_mul_I, ← Complex.ofReal_cos, ← Complex.ofReal_sin, Complex.mk_eq_add_mul_I]
    simp only [Finset.sum_range_succ, Finset.sum_range_zero, Nat.factorial, mul_pow, h2, h3, h4, h5, h6, h7, h8, h9, h10, h11]
    push_cast
    ring
  rw [e, hn] at h
  have hr : (|x| ^ 12 * (((12 : ℕ).succ : ℝ) * (((12 : ℕ).factorial : ℝ) * ((12 : ℕ) : ℝ))⁻¹)) = |x| ^ 12 * (13 / 5748019200) := by
    norm_num [Nat.factorial]
  rw [hr] at h
  exact ⟨(Complex.abs_re_le_norm _).trans h, (Complex.abs_im_le_norm _).trans h⟩

theorem exp_up : Real.exp (15 / 16 * 3.14159265358979323847) ≤ (2088217389163723056788383 / 10 ^ 24) ^ 4 := by
  have e : Real.exp (15 / 16 * 3.14159265358979323847) = Real.exp (15 / 64 * 3.14159265358979323847) ^ 4 := by
    rw [← Real.exp_nat_mul]; norm_num
  rw [e]
  apply pow_le_pow_left₀ (Real.exp_pos _).le
  refine (Real.exp_bound' (by norm_num) (by norm_num) (n := 22) (by norm_num)).trans ?_
  norm_num [Finset.sum_range_succ, Nat.factorial]

theorem exp_low : (2088217389163722537439562 / 10 ^ 24 : ℝ) ^ 4 ≤ Real.exp (15 / 16 * (884279719003555 / 2 ^ 48) - 88 / 10 ^ 17) := by
  have e : Real.exp (15 / 16 * (884279719003555 / 2 ^ 48) - 88 / 10 ^ 17) =
      Real.exp (15 / 64 * (884279719003555 / 2 ^ 48) - 22 / 10 ^ 17) ^ 4 := by
    rw [← Real.exp_nat_mul]; norm_num
  rw [e]
  apply pow_le_pow_left₀ (by norm_num)
  refine le_trans ?_ (Real.sum_le_exp_of_nonneg (by norm_num) 22)
  norm_num [Finset.sum_range_succ, Nat.factorial]

/-- The latitude, a double: some 83.979 degrees. -/
def latV : ℚ := 1477378756976271 / 2 ^ 44

/-- The latitude lies north of the border between rows 0 and 1 at zoom level 5. -/
theorem latV_row : down latV < 1 / 32 := by
  have q1 := Real.pi_gt_d20
  have q2 := Real.pi_lt_d20
  have hm : (15 / 16) * Real.pi < merc (latV : ℝ) := by
    have e : Real.pi / 4 + ((latV : ℚ) : ℝ) * Real.pi / 360 = Real.pi / 2 - Real.pi * ((90 - 1477378756976271 / 2 ^ 44) / 360) := by
      unfold latV; push_cast; ring
    unfold merc
    rw [e, Real.tan_eq_sin_div_cos, Real.sin_pi_div_two_sub, Real.cos_pi_div_two_sub]
    set k : ℝ := (90 - 1477378756976271 / 2 ^ 44) / 360 with hk
    have k0 : 0 < k := by rw [hk]; norm_num
    have k1 : k < 1 / 59 := by rw [hk]; norm_num
    set y : ℝ := 3.14159265358979323847 * k with hy
    have xy : Real.pi * k ≤ y := mul_le_mul_of_nonneg_right q2.le k0.le
    have x0 : 0 < Real.pi * k := mul_pos Real.pi_pos k0
    have y1 : y ≤ 1 := by rw [hy, hk]; norm_num
    have y0 : 0 ≤ y := by linarith
    have pi3 := Real.pi_gt_three
    have hs : Real.sin (Real.pi * k) ≤ Real.sin y := Real.sin_le_sin_of_le_of_le_pi_div_two (by linarith) (by linarith) xy
    have hc : Real.cos y ≤ Real.cos (Real.pi * k) := Real.cos_le_cos_of_nonneg_of_le_pi x0.le (by linarith) xy
    have t := taylor12 (x := y) (by rw [abs_of_nonneg y0]; exact y1)
    rw [abs_of_nonneg y0] at t
    have tc := (abs_le.1 t.1).1
    have ts := (abs_le.1 t.2).2
    have sp : 0 < Real.sin (Real.pi * k) := Real.sin_pos_of_pos_of_lt_pi x0 (by linarith)
    rw [Real.lt_log_iff_exp_lt (div_pos (by
      refine lt_of_lt_of_le ?_ hc
      exact Real.cos_pos_of_mem_Ioo ⟨by linarith, by linarith⟩) sp), lt_div_iff₀ sp]
    have ex : Real.exp (15 / 16 * Real.pi) ≤ (2088217389163723056788383 / 10 ^ 24) ^ 4 :=
      (Real.exp_le_exp.2 (by linarith)).trans exp_up
    have num : (2088217389163723056788383 / 10 ^ 24 : ℝ) ^ 4 *
        (y - y ^ 3 / 6 + y ^ 5 / 120 - y ^ 7 / 5040 + y ^ 9 / 362880 - y ^ 11 / 39916800 + y ^ 12 * (13 / 5748019200)) <
        1 - y ^ 2 / 2 + y ^ 4 / 24 - y ^ 6 / 720 + y ^ 8 / 40320 - y ^ 10 / 3628800 - y ^ 12 * (13 / 5748019200) := by
      rw [hy, hk]; norm_num
    calc Real.exp (15 / 16 * Real.pi) * Real.sin (Real.pi * k) ≤ (2088217389163723056788383 / 10 ^ 24) ^ 4 * Real.sin y :=
          mul_le_mul ex hs sp.le (by norm_num)
      _ ≤ _ := mul_le_mul_of_nonneg_left (sub_le_iff_le_add'.1 ts) (by norm_num)
      _ < _ := num
      _ ≤ Real.cos y := by linarith
      _ ≤ _ := hc
  have hl : ((latV : ℚ) : ℝ) = 1477378756976271 / 2 ^ 44 := by unfold latV; push_cast; ring
  unfold down
  rw [← merc_eq (by rw [hl]; norm_num) (by rw [hl]; norm_num)]
  have : 15 / 16 < merc (latV : ℝ) / Real.pi := by rw [lt_div_iff₀ Real.pi_pos]; exact hm
  linarith

/-- The logarithm at the rounded angle. -/
theorem latV_log : Real.log (Real.tan ((6837614697871125 / 2 ^ 52 : ℚ) : ℝ)) ≤ 15 / 16 * (884279719003555 / 2 ^ 48) - 88 / 10 ^ 17 := by
  have q1 := Real.pi_gt_d20
  have q2 := Real.pi_lt_d20
  obtain ⟨u, hu⟩ : ∃ u : ℝ, u = Real.pi / 2 - 6837614697871125 / 2 ^ 52 := ⟨_, rfl⟩
  have e : ((6837614697871125 / 2 ^ 52 : ℚ) : ℝ) = Real.pi / 2 - u := by rw [hu]; push_cast; ring
  rw [e, Real.tan_eq_sin_div_cos, Real.sin_pi_div_two_sub, Real.cos_pi_div_two_sub]
  set y : ℝ := 3.14159265358979323846 / 2 - 6837614697871125 / 2 ^ 52 with hy
  have yx : y ≤ u := by rw [hy, hu]; linarith
  have y0 : 0 < y := by rw [hy]; norm_num
  have u1 : u ≤ 1 := by rw [hu]; norm_num at q2 ⊢; linarith
  have pi3 := Real.pi_gt_three
  have hs : Real.sin y ≤ Real.sin u := Real.sin_le_sin_of_le_of_le_pi_div_two (by linarith) (by linarith) yx
  have hc : Real.cos u ≤ Real.cos y := Real.cos_le_cos_of_nonneg_of_le_pi y0.le (by linarith) yx
  have t := taylor12 (x := y) (by rw [abs_of_pos y0]; linarith)
  rw [abs_of_pos y0] at t
  have tc := (abs_le.1 t.1).2
  have ts := (abs_le.1 t.2).1
  have sp : 0 < Real.sin u := Real.sin_pos_of_pos_of_lt_pi (by linarith) (by linarith)
  have cp : 0 < Real.cos u := Real.cos_pos_of_mem_Ioo ⟨by linarith, by linarith⟩
  rw [Real.log_le_iff_le_exp (div_pos cp sp)]
  refine le_trans ?_ exp_low
  rw [div_le_iff₀ sp]
  have num : 1 - y ^ 2 / 2 + y ^ 4 / 24 - y ^ 6 / 720 + y ^ 8 / 40320 - y ^ 10 / 3628800 + y ^ 12 * (13 / 5748019200) ≤
      (2088217389163722537439562 / 10 ^ 24 : ℝ) ^ 4 *
        (y - y ^ 3 / 6 + y ^ 5 / 120 - y ^ 7 / 5040 + y ^ 9 / 362880 - y ^ 11 / 39916800 - y ^ 12 * (13 / 5748019200)) := by
    rw [hy]; norm_num
  calc Real.cos u ≤ Real.cos y := hc
    _ ≤ _ := sub_le_iff_le_add'.1 tc
    _ ≤ _ := num
    _ ≤ (2088217389163722537439562 / 10 ^ 24) ^ 4 * Real.sin y := mul_le_mul_of_nonneg_left (by linarith) (by norm_num)
    _ ≤ _ := mul_le_mul_of_nonneg_left hs (by norm_num)

/-- **C183 (violated).** Just north of a border the row to the south may be returned, with every accurate library: at 83.979 degrees, a
latitude in row 0 at zoom level 5, the code returns row 1. -/
theorem C183_violated_border {T : Lib} (hT : T.Accurate) :
    rnd latV = latV ∧ 0 < down latV ∧ down latV < 1 / 2 ^ 5 ∧ tileRowF double T piD latV 5 = .ok 1 := by
  have p1 := Real.pi_gt_three
  have hl : ((latV : ℚ) : ℝ) = 1477378756976271 / 2 ^ 44 := by unfold latV; push_cast; ring
  have h86 : |((latV : ℚ) : ℝ)| ≤ 86 := by rw [hl, abs_of_pos (by norm_num)]; norm_num
  have a : angleF double piD latV = 6837614697871125 / 2 ^ 52 := by decide +kernel
  have r := latV_row
  obtain ⟨tposq, _⟩ := log_err double hT piD_like h86
  have tan_err := hT.tan_err (angleF double piD latV)
  obtain ⟨y, hy, y1, y2⟩ := C183_near double hT piD_like h86 5
  have hrow := row_ok double hT piD_like h86 5
  rw [a] at tposq tan_err hrow
  generalize T.tan (6837614697871125 / 2 ^ 52) = t at *
  have tpos : (0 : ℝ) < t := by exact_mod_cast tposq
  have hlt := latV_log
  have mid : Mid ((6837614697871125 / 2 ^ 52 : ℚ) : ℝ) := by
    have q1 := Real.pi_gt_d6
    constructor <;> push_cast <;> norm_num at q1 ⊢
    linarith
  have xp := mid.tan_pos
  generalize Real.tan ((6837614697871125 / 2 ^ 52 : ℚ) : ℝ) = x at *
  rw [abs_of_pos xp] at tan_err
  have tx : (t : ℝ) ≤ x * (1 + 1 / 2 ^ 52) := by linarith [(abs_le.1 tan_err).2]
  have lt : Real.log t ≤ Real.log x + 1 / 2 ^ 52 := by
    have h1 := Real.log_le_log tpos tx
    rw [Real.log_mul xp.ne' (by norm_num)] at h1
    have h2 := Real.log_le_sub_one_of_pos (x := 1 + 1 / 2 ^ 52) (by norm_num)
    linarith
  have le := (abs_le.1 (hT.log_err t tposq)).2
  have L : ((T.log t : ℚ) : ℝ) ≤ 15 / 16 * (884279719003555 / 2 ^ 48) := by
    rcases le_total 0 (Real.log t) with h0 | h0
    · rw [abs_of_nonneg h0] at le
      norm_num at le lt hlt ⊢
      linarith
    · rw [abs_of_nonpos h0] at le
      norm_num at le ⊢
      linarith
  have Lq : T.log t ≤ 15 / 16 * piD := by
    have : ((T.log t : ℚ) : ℝ) ≤ ((15 / 16 * piD : ℚ) : ℝ) := by unfold piD; push_cast; exact L
    exact_mod_cast this
  have low : 1 ≤ ⌊double.fl (double.fl (double.fl (128 / piD) * 2 ^ 5) * double.fl (piD - T.log t)) / 256⌋ := by
    rw [Int.le_floor]
    have c0 : 0 ≤ double.fl (double.fl (128 / piD) * 2 ^ 5) := by decide +kernel
    have w : double.fl (piD - 15 / 16 * piD) ≤ double.fl (piD - T.log t) := double.mono (by linarith)
    have v := double.mono (mul_le_mul_of_nonneg_left w c0)
    have c : (256 : ℚ) ≤ double.fl (double.fl (double.fl (128 / piD) * 2 ^ 5) * double.fl (piD - 15 / 16 * piD)) := by decide +kernel
    push_cast
    linarith
  have hyy : y = ⌊double.fl (double.fl (double.fl (128 / piD) * 2 ^ 5) * double.fl (piD - T.log t)) / 256⌋ := by
    rw [hy] at hrow
    exact Except.ok.inj hrow
  have ylow : 1 ≤ y := by rw [hyy]; exact low
  have yhi : y < 2 := by
    have : (y : ℝ) < 2 := by
      have h5 : (2 : ℝ) ^ 5 = 32 := by norm_num
      rw [h5] at y1
      norm_num at y1 r
      linarith
    exact_mod_cast this
  have y1' : y = 1 := by omega
  have yr : (1 : ℝ) ≤ y := by exact_mod_cast ylow
  refine ⟨by decide +kernel, ?_, by norm_num at r ⊢; exact r, by rw [hy, y1']⟩
  norm_num at y1
  linarith

end Karta.Float.TileRow
