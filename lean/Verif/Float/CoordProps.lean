import Verif.Float.Coord

/-!
# Cell lookup in floating point: property C141
-/

namespace Karta.Float
open Karta Karta.Grid

variable (R : Rounding)

/-! ### Specification -/

/-- Spec: the coordinate `x` is in the cell number `c` of cells of width `d` that start at `x0` (which may be counted leftwards), and
at least 1/512 of a cell away from its edges. -/
def WellInside (x0 d x : ℚ) (c : ℤ) : Prop := |(x - x0) / d - (c + 1 / 2)| ≤ 1 / 2 - 1 / 512

/-- Spec: within `2 ^ 38` cells from the origin of coordinates. -/
def InRange (d x : ℚ) : Prop := |x| ≤ 2 ^ 38 * |d|

/-! ### Lemmas -/

theorem near_mul {p q a b : ℚ} (hp : |p - 1| ≤ a) (hq : |q - 1| ≤ b) : |p * q - 1| ≤ a + b + a * b := by
  have e : p * q - 1 = (p - 1) + (q - 1) + (p - 1) * (q - 1) := by ring
  rw [e]
  refine le_trans (abs_add_le _ _) (add_le_add (le_trans (abs_add_le _ _) (add_le_add hp hq)) ?_)
  rw [abs_mul]
  exact mul_le_mul hp hq (abs_nonneg _) (le_trans (abs_nonneg _) hp)

theorem near_inv {p a : ℚ} (hp : |p - 1| ≤ a) (ha : a ≤ 1 / 2) : |p⁻¹ - 1| ≤ 2 * a := by
  have h := abs_le.1 hp
  have h0 : 1 / 2 ≤ p := by linarith
  have hpos : 0 < p := by linarith
  have e : p⁻¹ - 1 = -((p - 1) * p⁻¹) := by field_simp; ring
  rw [e, abs_neg, abs_mul, abs_of_pos (inv_pos.2 hpos)]
  have : p⁻¹ ≤ 2 := by
    rw [inv_le_comm₀ hpos (by norm_num)]; linarith
  have h1 : |p - 1| * p⁻¹ ≤ a * 2 := mul_le_mul hp this (inv_pos.2 hpos).le (le_trans (abs_nonneg _) hp)
  linarith

theorem one_add_near {d : ℚ} (h : |d| ≤ 1 / 2 ^ 53) : |(1 + d) - 1| ≤ 1 / 2 ^ 53 := by
  rw [add_sub_cancel_left]; exact h

theorem fl_sub_zero (x : ℚ) : R.fl (R.fl x - 0) = R.fl x := by rw [sub_zero, R.idem]

theorem fl_add_zero (x : ℚ) : R.fl (R.fl x + 0) = R.fl x := by rw [add_zero, R.idem]

/-- The last step: subtracting one half. -/
theorem last_half (t s : ℚ) (ht : |t - s| ≤ 1 / 1024) (hs : |s| ≤ 2 ^ 39) : |R.fl (t - 1 / 2) - (s - 1 / 2)| < 1 / 512 := by
  have h := R.err (t - 1 / 2)
  have h1 := abs_le.1 ht
  have h2 := abs_le.1 hs
  have h3 : |t - 1 / 2| ≤ 2 ^ 40 := by rw [abs_le]; constructor <;> linarith
  have h4 : (1 : ℚ) / 2 ^ 53 * |t - 1 / 2| ≤ 1 / 2 ^ 53 * 2 ^ 40 := mul_le_mul_of_nonneg_left h3 (by norm_num)
  have h5 := abs_le.1 (le_trans h h4)
  norm_num at h5
  rw [abs_lt]
  constructor <;> linarith [h5.1, h5.2]

theorem col_err (dx dy x x0 : ℚ) (hdx : dx ≠ 0) (hdy : dy ≠ 0) (hx : InRange dx x) (hx0 : InRange dx x0) :
    |R.fl (R.fl (R.fl (dy * x) - R.fl (dy * x0)) / R.fl (dx * dy)) - (x - x0) / dx| ≤ 1 / 1024 := by
  obtain ⟨d1, h1, e1⟩ := R.rel (dy * x)
  obtain ⟨d2, h2, e2⟩ := R.rel (dy * x0)
  obtain ⟨d3, h3, e3⟩ := R.rel (R.fl (dy * x) - R.fl (dy * x0))
  obtain ⟨d4, h4, e4⟩ := R.rel (dx * dy)
  obtain ⟨d5, h5, e5⟩ := R.rel (R.fl (R.fl (dy * x) - R.fl (dy * x0)) / R.fl (dx * dy))
  have n4 := one_add_near h4
  have p4 : (1 + d4) ≠ 0 := by
    have := abs_le.1 h4
    have : (0 : ℚ) < 1 + d4 := by norm_num at this; linarith [this.1]
    exact this.ne'
  set w := (1 + d3) * (1 + d5) * (1 + d4)⁻¹ with hw
  have hwn : |w - 1| ≤ 1 / 2 ^ 50 := by
    refine le_trans (near_mul (near_mul (one_add_near h3) (one_add_near h5)) (near_inv n4 (by norm_num))) ?_
    norm_num
  set a := x / dx with ha
  set b := x0 / dx with hb
  have hapos : 0 < |dx| := abs_pos.2 hdx
  have ba : |a| ≤ 2 ^ 38 := by rw [ha, abs_div, div_le_iff₀ hapos]; exact hx
  have bb : |b| ≤ 2 ^ 38 := by rw [hb, abs_div, div_le_iff₀ hapos]; exact hx0
  have key : R.fl (R.fl (R.fl (dy * x) - R.fl (dy * x0)) / R.fl (dx * dy)) = ((a - b) + (a * d1 - b * d2)) * w := by
    rw [e5, e3, e1, e2, e4, hw, ha, hb]
    field_simp
    ring
  have e : (x - x0) / dx = a - b := by rw [ha, hb, sub_div]
  rw [key, e]
  have e2 : (a - b + (a * d1 - b * d2)) * w - (a - b) = (a - b) * (w - 1) + (a * d1 - b * d2) * w := by ring
  rw [e2]
  have q1 : |a - b| ≤ 2 ^ 39 := by
    refine le_trans (abs_sub _ _) ?_
    norm_num at ba bb ⊢; linarith
  have q2 : |a * d1 - b * d2| ≤ 2 ^ 39 * (1 / 2 ^ 53) := by
    refine le_trans (abs_sub _ _) ?_
    rw [abs_mul, abs_mul]
    have s1 : |a| * |d1| ≤ 2 ^ 38 * (1 / 2 ^ 53) := mul_le_mul ba h1 (abs_nonneg _) (by norm_num)
    have s2 : |b| * |d2| ≤ 2 ^ 38 * (1 / 2 ^ 53) := mul_le_mul bb h2 (abs_nonneg _) (by norm_num)
    norm_num at s1 s2 ⊢; linarith
  have q3 : |w| ≤ 2 := by
    have := abs_le.1 hwn
    norm_num at this
    rw [abs_le]; constructor <;> linarith [this.1, this.2]
  refine le_trans (abs_add_le _ _) ?_
  rw [abs_mul, abs_mul]
  have r1 : |a - b| * |w - 1| ≤ 2 ^ 39 * (1 / 2 ^ 50) := mul_le_mul q1 hwn (abs_nonneg _) (by norm_num)
  have r2 : |a * d1 - b * d2| * |w| ≤ 2 ^ 39 * (1 / 2 ^ 53) * 2 := mul_le_mul q2 q3 (abs_nonneg _) (by norm_num)
  norm_num at r1 r2 ⊢
  linarith

theorem row_err (dy y y0 : ℚ) (hdy : dy ≠ 0) (hy : InRange dy y) (hy0 : InRange dy y0) :
    |R.fl (R.fl (y - y0) / dy) - (y - y0) / dy| ≤ 1 / 1024 := by
  obtain ⟨d1, h1, e1⟩ := R.rel (y - y0)
  obtain ⟨d2, h2, e2⟩ := R.rel (R.fl (y - y0) / dy)
  have hw := near_mul (one_add_near h1) (one_add_near h2)
  have key : R.fl (R.fl (y - y0) / dy) = (y - y0) / dy * ((1 + d1) * (1 + d2)) := by
    rw [e2, e1]; ring
  have hapos : 0 < |dy| := abs_pos.2 hdy
  have q1 : |(y - y0) / dy| ≤ 2 ^ 39 := by
    rw [abs_div, div_le_iff₀ hapos]
    refine le_trans (abs_sub _ _) ?_
    unfold InRange at hy hy0
    have : (2 : ℚ) ^ 39 * |dy| = 2 ^ 38 * |dy| + 2 ^ 38 * |dy| := by ring
    rw [this]
    exact add_le_add hy hy0
  rw [key, show ∀ t w : ℚ, t * w - t = t * (w - 1) from fun t w => by ring, abs_mul]
  refine le_trans (mul_le_mul q1 hw (abs_nonneg _) (by norm_num)) ?_
  norm_num

theorem ratio_bound (d x x0 : ℚ) (hd : d ≠ 0) (hx : InRange d x) (hx0 : InRange d x0) : |(x - x0) / d| ≤ 2 ^ 39 := by
  have hapos : 0 < |d| := abs_pos.2 hd
  rw [abs_div, div_le_iff₀ hapos]
  refine le_trans (abs_sub _ _) ?_
  have : (2 : ℚ) ^ 39 * |d| = 2 ^ 38 * |d| + 2 ^ 38 * |d| := by ring
  rw [this]
  exact add_le_add hx hx0

/-! ### C141 -/

/-- C141.  On a grid without skew the computed row and column positions are within 1/512 of a cell of the true ones, up to `2 ^ 38` cells
from the origin of coordinates. -/
theorem C141_positions (T : Xform) (hsx : T.sx = 0) (hsy : T.sy = 0) (hdx : T.dx ≠ 0) (hdy : T.dy ≠ 0) (x y : ℚ)
    (hx : InRange T.dx x) (hx0 : InRange T.dx T.x0) (hy : InRange T.dy y) (hy0 : InRange T.dy T.y0) :
    ∃ i j, positionsF R T x y = some (i, j) ∧
      |i - ((y - T.y0) / T.dy - 1 / 2)| < 1 / 512 ∧ |j - ((x - T.x0) / T.dx - 1 / 2)| < 1 / 512 := by
  have hdet : R.fl (R.fl (T.dx * T.dy) - R.fl (T.sx * T.sy)) = R.fl (T.dx * T.dy) := by
    rw [hsx, zero_mul, R.zero, fl_sub_zero]
  have hdet0 : R.fl (T.dx * T.dy) ≠ 0 := fun h => (mul_ne_zero hdx hdy) (R.eq_zero.1 h)
  unfold positionsF
  rw [hdet]
  dsimp only
  rw [if_neg (by push Not; exact ⟨hdet0, hdy⟩)]
  refine ⟨_, _, rfl, ?_, ?_⟩
  · simp only [hsx, hsy, zero_mul, mul_zero, R.zero, fl_sub_zero, fl_add_zero]
    exact last_half R _ _ (row_err R T.dy y T.y0 hdy hy hy0) (ratio_bound _ _ _ hdy hy hy0)
  · simp only [hsx, zero_mul, R.zero, fl_sub_zero, fl_add_zero]
    exact last_half R _ _ (col_err R T.dx T.dy x T.x0 hdx hdy hx hx0) (ratio_bound _ _ _ hdx hx hx0)

/-- C141.  A point well inside a cell is looked up in that cell, in spite of rounding. -/
theorem C141_cell (T : Xform) (ny nx : Nat) (hsx : T.sx = 0) (hsy : T.sy = 0) (hdx : T.dx ≠ 0) (hdy : T.dy ≠ 0) (x y : ℚ)
    (hx : InRange T.dx x) (hx0 : InRange T.dx T.x0) (hy : InRange T.dy y) (hy0 : InRange T.dy T.y0) (i j : ℤ)
    (hi : WellInside T.y0 T.dy y i) (hj : WellInside T.x0 T.dx x j) :
    indicesF R T ny nx x y = some (if 0 ≤ i ∧ i < ny ∧ 0 ≤ j ∧ j < nx then .ok (i, j) else .error .indexError) := by
  obtain ⟨p, q, e, hp, hq⟩ := C141_positions R T hsx hsy hdx hdy x y hx hx0 hy hy0
  unfold WellInside at hi hj
  have strict : ∀ {p s : ℚ} {c : ℤ}, |p - (s - 1 / 2)| < 1 / 512 → |s - (c + 1 / 2)| ≤ 1 / 2 - 1 / 512 → rint p = c := by
    intro p s c h1 h2
    have a := abs_lt.1 h1
    have b := abs_le.1 h2
    refine rint_near p c (abs_lt.2 ⟨?_, ?_⟩) <;> linarith [a.1, a.2, b.1, b.2]
  unfold indicesF indicesRawF
  rw [e, Option.map_some, Option.map_some, strict hp hi, strict hq hj]
  congr 1
  by_cases c : 0 ≤ i ∧ i < ny ∧ 0 ≤ j ∧ j < nx
  · rw [if_pos c, if_neg (by omega : ¬ (i < 0 ∨ i > (ny : Int) - 1 ∨ j < 0 ∨ j > (nx : Int) - 1))]
  · rw [if_neg c, if_pos (by omega : (i < 0 ∨ i > (ny : Int) - 1 ∨ j < 0 ∨ j > (nx : Int) - 1))]

/-- One coordinate of a cell centre as computed by `coordinates` (coordgen.py 61-63), without skew. -/
theorem centre_err (x0 d : ℚ) (j : ℤ) (hx0 : |x0| ≤ 2 ^ 37 * |d|) (h0 : 0 ≤ j) (h1 : j < 2 ^ 31) :
    |R.fl (R.fl (x0 + R.fl ((j : ℚ) * d)) + R.fl (1 / 2 * d)) - (x0 + ((j : ℚ) + 1 / 2) * d)| ≤ 1 / 4096 * |d| := by
  have hD := abs_nonneg d
  have hj0 : (0 : ℚ) ≤ j := by exact_mod_cast h0
  have hj1 : (j : ℚ) ≤ 2 ^ 31 := by exact_mod_cast h1.le
  have a1 := R.err ((j : ℚ) * d)
  rw [abs_mul, abs_of_nonneg hj0] at a1
  have b1 : (j : ℚ) * |d| ≤ 2 ^ 31 * |d| := mul_le_mul_of_nonneg_right hj1 hD
  set s1 := R.fl ((j : ℚ) * d)
  have a2 := R.err (x0 + s1)
  set s2 := R.fl (x0 + s1)
  have a3 := R.err (1 / 2 * d)
  rw [abs_mul, abs_of_pos (by norm_num : (0 : ℚ) < 1 / 2)] at a3
  set h := R.fl (1 / 2 * d)
  have a4 := R.err (s2 + h)
  set s3 := R.fl (s2 + h)
  have t1 : |s1| ≤ 2 ^ 32 * |d| := by
    have : |s1| ≤ |s1 - j * d| + |(j : ℚ) * d| := by
      have := abs_add_le (s1 - j * d) (j * d); rwa [sub_add_cancel] at this
    rw [abs_mul, abs_of_nonneg hj0] at this
    norm_num at a1 b1 ⊢; linarith
  have t2 : |x0 + s1| ≤ 2 ^ 38 * |d| := by
    have := abs_add_le x0 s1
    norm_num at t1 hx0 ⊢; linarith
  have t3 : |s2| ≤ 2 ^ 39 * |d| := by
    have : |s2| ≤ |s2 - (x0 + s1)| + |x0 + s1| := by
      have := abs_add_le (s2 - (x0 + s1)) (x0 + s1); rwa [sub_add_cancel] at this
    norm_num at a2 t2 ⊢; linarith
  have t4 : |h| ≤ |d| := by
    have : |h| ≤ |h - 1 / 2 * d| + |1 / 2 * d| := by
      have := abs_add_le (h - 1 / 2 * d) (1 / 2 * d); rwa [sub_add_cancel] at this
    rw [abs_mul (1 / 2 : ℚ) d, abs_of_pos (by norm_num : (0 : ℚ) < 1 / 2)] at this
    norm_num at a3 ⊢; linarith
  have t5 : |s2 + h| ≤ 2 ^ 40 * |d| := by
    have := abs_add_le s2 h
    norm_num at t3 ⊢; linarith
  have e : s3 - (x0 + ((j : ℚ) + 1 / 2) * d) = (s3 - (s2 + h)) + ((s2 - (x0 + s1)) + ((s1 - j * d) + (h - 1 / 2 * d))) := by ring
  rw [e]
  have c1 := abs_add_le (s3 - (s2 + h)) ((s2 - (x0 + s1)) + ((s1 - j * d) + (h - 1 / 2 * d)))
  have c2 := abs_add_le (s2 - (x0 + s1)) ((s1 - j * d) + (h - 1 / 2 * d))
  have c3 := abs_add_le (s1 - j * d) (h - 1 / 2 * d)
  linarith

theorem centre_inside (x0 d : ℚ) (hd : d ≠ 0) (j : ℤ) (hx0 : |x0| ≤ 2 ^ 37 * |d|) (h0 : 0 ≤ j) (h1 : j < 2 ^ 31) (x : ℚ)
    (hx : |x - (x0 + ((j : ℚ) + 1 / 2) * d)| ≤ 1 / 4096 * |d|) : InRange d x ∧ InRange d x0 ∧ WellInside x0 d x j := by
  have hD : 0 < |d| := abs_pos.2 hd
  have hj0 : (0 : ℚ) ≤ j := by exact_mod_cast h0
  have hj1 : (j : ℚ) ≤ 2 ^ 31 := by exact_mod_cast h1.le
  refine ⟨?_, ?_, ?_⟩
  · have c1 : |x| ≤ |x - (x0 + ((j : ℚ) + 1 / 2) * d)| + |x0 + ((j : ℚ) + 1 / 2) * d| := by
      have := abs_add_le (x - (x0 + ((j : ℚ) + 1 / 2) * d)) (x0 + ((j : ℚ) + 1 / 2) * d); rwa [sub_add_cancel] at this
    have c2 := abs_add_le x0 (((j : ℚ) + 1 / 2) * d)
    rw [abs_mul, abs_of_nonneg (by linarith : (0 : ℚ) ≤ j + 1 / 2)] at c2
    have c3 : ((j : ℚ) + 1 / 2) * |d| ≤ (2 ^ 31 + 1 / 2) * |d| := mul_le_mul_of_nonneg_right (by linarith) hD.le
    unfold InRange
    linarith
  · unfold InRange
    linarith
  · unfold WellInside
    have e : (x - x0) / d - (j + 1 / 2) = (x - (x0 + ((j : ℚ) + 1 / 2) * d)) / d := by field_simp; ring
    rw [e, abs_div, div_le_iff₀ hD]
    linarith

/-- C141.  The cell centres returned by `coordinates()` are looked up in their own cells, in spite of two rounds of rounding, on every
grid without skew whose origin is within `2 ^ 37` cells from the origin of coordinates. -/
theorem C141_centre (T : Xform) (ny nx : Nat) (hny : ny ≤ 2 ^ 31) (hnx : nx ≤ 2 ^ 31) (hsx : T.sx = 0) (hsy : T.sy = 0)
    (hdx : T.dx ≠ 0) (hdy : T.dy ≠ 0) (hx0 : |T.x0| ≤ 2 ^ 37 * |T.dx|) (hy0 : |T.y0| ≤ 2 ^ 37 * |T.dy|) (i j : ℤ)
    (hi : 0 ≤ i ∧ i < ny) (hj : 0 ≤ j ∧ j < nx) :
    indicesF R T ny nx (coordGenF R T i j).1 (coordGenF R T i j).2 = some (.ok (i, j)) := by
  have e : coordGenF R T i j = (R.fl (R.fl (T.x0 + R.fl ((j : ℚ) * T.dx)) + R.fl (1 / 2 * T.dx)),
      R.fl (R.fl (T.y0 + R.fl ((i : ℚ) * T.dy)) + R.fl (1 / 2 * T.dy))) := by
    unfold coordGenF
    simp only [hsx, hsy, mul_zero, R.zero, fl_add_zero]
  rw [e]
  obtain ⟨a1, a2, a3⟩ := centre_inside T.x0 T.dx hdx j hx0 hj.1 (by omega) _ (centre_err R T.x0 T.dx j hx0 hj.1 (by omega))
  obtain ⟨b1, b2, b3⟩ := centre_inside T.y0 T.dy hdy i hy0 hi.1 (by omega) _ (centre_err R T.y0 T.dy i hy0 hi.1 (by omega))
  rw [C141_cell R T ny nx hsx hsy hdx hdy _ _ a1 a2 b1 b2 i j b3 a3, if_pos ⟨hi.1, hi.2, hj.1, hj.2⟩]

/-- C141 on a grid with cells of one tenth, whose centres are not exact: column 6 of the centre of column 6 in double precision. -/
example : indicesF double ⟨0, 0, rnd (1 / 10), 1, 0, 0⟩ 5 10 (coordGenF double ⟨0, 0, rnd (1 / 10), 1, 0, 0⟩ 2 6).1
    (coordGenF double ⟨0, 0, rnd (1 / 10), 1, 0, 0⟩ 2 6).2 = some (.ok (2, 6)) := by
  refine C141_centre double _ 5 10 (by norm_num) (by norm_num) rfl rfl ?_ (by norm_num) ?_ ?_ 2 6 (by norm_num) (by norm_num)
  · decide +kernel
  · rw [abs_zero]; positivity
  · rw [abs_zero]; positivity

end Karta.Float
