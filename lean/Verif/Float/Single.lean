import Verif.Float.Basic
import Verif.Float.Units
import Verif.Vec.RTreeProps

/-!
# Single precision

The R-tree keeps bounding boxes in variables of type `float` (rtree.h 12-17, rtree.pyx 11-15): IEEE 754 single precision, with 24
significant bits.  Simplification: as for doubles, the range of exponents is unbounded.
-/

namespace Karta.Float
open Karta Karta.Grid

/-- Assumptions on the conversion of a double to single precision. -/
structure Single where
  /-- the number, rounded -/
  fl : ℚ → ℚ
  /-- rounding keeps the order -/
  mono : Monotone fl
  /-- the relative error is at most half a unit in the last of 24 places -/
  err : ∀ x, |fl x - x| ≤ 1 / 2 ^ 24 * |x|
  /-- numbers with 24 bits are not changed -/
  exact : ∀ m k : ℤ, |m| ≤ 2 ^ 24 → fl ((m : ℚ) * 2 ^ k) = (m : ℚ) * 2 ^ k

/-- The exponent of the last of 24 bits of `x`. -/
def ulp24 (x : ℚ) : ℤ := Int.log 2 |x| - 23

/-- IEEE 754 binary32, round to nearest with halves to even, without limits on the exponent. -/
def rnd24 (x : ℚ) : ℚ := if x = 0 then 0 else (rint (x / 2 ^ ulp24 x) : ℚ) * 2 ^ ulp24 x

theorem log_bounds24 (x : ℚ) (h : x ≠ 0) : (2 : ℚ) ^ (ulp24 x + 23) ≤ |x| ∧ |x| < 2 ^ (ulp24 x + 24) := by
  have hx : 0 < |x| := abs_pos.2 h
  have e : ulp24 x + 23 = Int.log 2 |x| := by unfold ulp24; ring
  have e' : ulp24 x + 24 = Int.log 2 |x| + 1 := by unfold ulp24; ring
  rw [e, e']
  exact ⟨by simpa using Int.zpow_log_le_self (b := 2) (by norm_num) hx, by simpa using Int.lt_zpow_succ_log_self (b := 2) (by norm_num) |x|⟩

theorem rnd24_err (x : ℚ) : |rnd24 x - x| ≤ 1 / 2 ^ 24 * |x| := by
  unfold rnd24
  by_cases h : x = 0
  · rw [if_pos h, h]; norm_num
  · rw [if_neg h]
    have p := two_pow_pos (ulp24 x)
    have b := (log_bounds24 x h).1
    rw [zpow_add₀ (by norm_num)] at b
    have e : (rint (x / 2 ^ ulp24 x) : ℚ) * 2 ^ ulp24 x - x = ((rint (x / 2 ^ ulp24 x) : ℚ) - x / 2 ^ ulp24 x) * 2 ^ ulp24 x := by
      field_simp
    rw [e, abs_mul, abs_of_pos p]
    have r := rint_bounds (x / 2 ^ ulp24 x)
    have : |(rint (x / 2 ^ ulp24 x) : ℚ) - x / 2 ^ ulp24 x| * 2 ^ ulp24 x ≤ 1 / 2 * 2 ^ ulp24 x :=
      mul_le_mul_of_nonneg_right r p.le
    have b2 : (2 : ℚ) ^ ulp24 x * 2 ^ 23 ≤ |x| := by exact_mod_cast b
    norm_num at b2 ⊢
    linarith

theorem rnd24_neg (x : ℚ) : rnd24 (-x) = -rnd24 x := by
  unfold rnd24
  by_cases h : x = 0
  · rw [h]; simp
  · have u : ulp24 (-x) = ulp24 x := by unfold ulp24; rw [abs_neg]
    rw [if_neg h, if_neg (by simpa using h), u, neg_div, rint_neg]
    push_cast; ring

/-- A multiple of the last bit is not changed. -/
theorem rnd24_fixed (x : ℚ) (n : ℤ) (h : x = n * 2 ^ ulp24 x) : rnd24 x = x := by
  unfold rnd24
  by_cases h0 : x = 0
  · rw [if_pos h0, h0]
  · rw [if_neg h0]
    have p := two_pow_pos (ulp24 x)
    have e : x / 2 ^ ulp24 x = n := by
      rw [div_eq_iff p.ne']; exact h
    rw [e, rint_int, ← h]

theorem rnd24_exact (m k : ℤ) (h : |m| ≤ 2 ^ 24) : rnd24 ((m : ℚ) * 2 ^ k) = (m : ℚ) * 2 ^ k := by
  by_cases hm : m = 0
  · subst hm; simp [rnd24]
  set x : ℚ := (m : ℚ) * 2 ^ k with hx
  have hx0 : x ≠ 0 := mul_ne_zero (by exact_mod_cast hm) (two_pow_pos k).ne'
  obtain ⟨b1, b2⟩ := log_bounds24 x hx0
  have ha : |x| = (|m| : ℤ) * 2 ^ k := by rw [hx, abs_mul, abs_of_pos (two_pow_pos k), Int.cast_abs]
  have hle : |x| ≤ 2 ^ (k + 24) := by
    rw [ha, zpow_add₀ (by norm_num), mul_comm]
    refine mul_le_mul_of_nonneg_left ?_ (two_pow_pos k).le
    have : ((|m| : ℤ) : ℚ) ≤ ((2 ^ 24 : ℤ) : ℚ) := by exact_mod_cast h
    refine le_trans this ?_
    norm_num
  have key : ulp24 x ≤ k ∨ (ulp24 x = k + 1 ∧ |x| = 2 ^ (k + 24)) := by
    by_cases c : ulp24 x ≤ k
    · exact Or.inl c
    · right
      have h1 : (2 : ℚ) ^ (ulp24 x + 23) ≤ 2 ^ (k + 24) := le_trans b1 hle
      rw [zpow_le_zpow_iff_two] at h1
      have e : ulp24 x = k + 1 := by omega
      refine ⟨e, le_antisymm hle ?_⟩
      rw [e] at b1
      rwa [show k + 1 + 23 = k + 24 by ring] at b1
  rcases key with hk | ⟨e, hk⟩
  · obtain ⟨n, hn⟩ := two_zpow_int (show 0 ≤ k - ulp24 x by omega)
    refine rnd24_fixed x (m * n) ?_
    push_cast
    rw [← hn, mul_assoc, ← zpow_add₀ (by norm_num), sub_add_cancel]
  · have h23 : (2 : ℚ) ^ (k + 24) = ((2 ^ 23 : ℤ) : ℚ) * 2 ^ ulp24 x := by
      rw [e, show k + 24 = (23 : ℤ) + (k + 1) by ring, zpow_add₀ (by norm_num)]
      norm_num
    rcases abs_cases x with ⟨a, _⟩ | ⟨a, _⟩
    · exact rnd24_fixed x (2 ^ 23) (by rw [← h23, ← hk, a])
    · refine rnd24_fixed x (-2 ^ 23) ?_
      have : x = -(((2 ^ 23 : ℤ) : ℚ) * 2 ^ ulp24 x) := by rw [← h23, ← hk, a, neg_neg]
      rw [Int.cast_neg, neg_mul]
      exact this

theorem rnd24_nonneg {x : ℚ} (h : 0 ≤ x) : 0 ≤ rnd24 x := by
  have := rnd24_err x
  rw [abs_of_nonneg h, abs_le] at this
  have e : (1 : ℚ) / 2 ^ 24 * x ≤ x := by
    have : (1 : ℚ) / 2 ^ 24 ≤ 1 := by norm_num
    nlinarith
  linarith [this.1]

theorem rnd24_pos_bounds {x : ℚ} (h : 0 < x) : 2 ^ (ulp24 x + 23) ≤ rnd24 x ∧ rnd24 x ≤ 2 ^ (ulp24 x + 24) := by
  obtain ⟨b1, b2⟩ := log_bounds24 x h.ne'
  rw [abs_of_pos h] at b1 b2
  have p := two_pow_pos (ulp24 x)
  have e : ∀ n : ℕ, (2 : ℚ) ^ (ulp24 x + n) = ((2 ^ n : ℤ) : ℚ) * 2 ^ ulp24 x := by
    intro n
    rw [add_comm, zpow_add₀ (by norm_num), two_zpow_nat]
  have e23 := e 23
  have e24 := e 24
  simp only [Nat.cast_ofNat] at e23 e24
  unfold rnd24
  rw [if_neg h.ne']
  constructor
  · rw [e23]
    refine mul_le_mul_of_nonneg_right ?_ p.le
    have : rint ((2 ^ 23 : ℤ) : ℚ) ≤ rint (x / 2 ^ ulp24 x) := by
      refine rint_mono ?_
      rw [le_div_iff₀ p, ← e23]; exact b1
    rw [rint_int] at this
    exact_mod_cast this
  · rw [e24]
    refine mul_le_mul_of_nonneg_right ?_ p.le
    have : rint (x / 2 ^ ulp24 x) ≤ rint ((2 ^ 24 : ℤ) : ℚ) := by
      refine rint_mono ?_
      rw [div_le_iff₀ p, ← e24]; exact b2.le
    rw [rint_int] at this
    exact_mod_cast this

theorem rnd24_mono_pos {x y : ℚ} (h : 0 < x) (hy : x ≤ y) : rnd24 x ≤ rnd24 y := by
  have hy0 : 0 < y := lt_of_lt_of_le h hy
  by_cases e : ulp24 x = ulp24 y
  · unfold rnd24
    rw [if_neg h.ne', if_neg hy0.ne', e]
    have p := two_pow_pos (ulp24 y)
    refine mul_le_mul_of_nonneg_right ?_ p.le
    have : rint (x / 2 ^ ulp24 y) ≤ rint (y / 2 ^ ulp24 y) := rint_mono (div_le_div_of_nonneg_right hy p.le)
    exact_mod_cast this
  · obtain ⟨b1, b2⟩ := log_bounds24 x h.ne'
    obtain ⟨c1, c2⟩ := log_bounds24 y hy0.ne'
    rw [abs_of_pos h] at b1 b2
    rw [abs_of_pos hy0] at c1 c2
    have hlt : (2 : ℚ) ^ (ulp24 x + 23) < 2 ^ (ulp24 y + 24) := lt_of_le_of_lt b1 (lt_of_le_of_lt hy c2)
    rw [zpow_lt_zpow_iff_two] at hlt
    have hle : ulp24 x + 24 ≤ ulp24 y + 23 := by omega
    exact le_trans (rnd24_pos_bounds h).2 (le_trans (zpow_le_zpow_iff_two.2 hle) (rnd24_pos_bounds hy0).1)

theorem rnd24_mono : Monotone rnd24 := by
  intro x y h
  rcases lt_trichotomy x 0 with hx | hx | hx
  · rcases lt_or_ge y 0 with hy | hy
    · have := rnd24_mono_pos (x := -y) (y := -x) (by linarith) (by linarith)
      rw [rnd24_neg, rnd24_neg] at this
      linarith
    · have h1 := rnd24_nonneg hy
      have h2 := rnd24_nonneg (x := -x) (by linarith)
      rw [rnd24_neg] at h2
      linarith
  · subst hx
    have : rnd24 0 = 0 := by simp [rnd24]
    rw [this]; exact rnd24_nonneg h
  · exact rnd24_mono_pos hx h

/-- IEEE 754 single precision meets the assumptions. -/
def single : Single := ⟨rnd24, rnd24_mono, rnd24_err, rnd24_exact⟩

end Karta.Float
