import Verif.Grid.Coord
import Verif.Vec.Basic
import Mathlib.Data.Int.Log
import Mathlib.Tactic.Linarith
import Mathlib.Tactic.Ring
import Mathlib.Tactic.FieldSimp
import Mathlib.Tactic.Positivity
import Mathlib.Tactic.NormNum
import Mathlib.Tactic.GCongr

/-!
# Floating-point arithmetic

karta computes with IEEE 754 doubles: every operation returns the exact result rounded to 53 significant bits.  `Rounding` states what
the theorems of this directory assume about this rounding, and `double` is a function that meets it: round to nearest, halves to
even.  Simplification: the range of exponents is unbounded, so that there is no overflow and no loss of bits close to zero; there are no
infinities and no NaN.
-/

namespace Karta.Float
open Karta Karta.Grid

/-- Assumptions on rounding. -/
structure Rounding where
  /-- the exact result of an operation, rounded -/
  fl : ℚ → ℚ
  /-- the relative error is at most half a unit in the last of 53 places -/
  err : ∀ x, |fl x - x| ≤ 1 / 2 ^ 53 * |x|
  /-- rounding keeps the order -/
  mono : Monotone fl
  /-- numbers with 53 bits are not changed -/
  exact : ∀ m k : ℤ, |m| ≤ 2 ^ 53 → fl ((m : ℚ) * 2 ^ k) = (m : ℚ) * 2 ^ k
  /-- results of rounding are not changed by rounding -/
  idem : ∀ x, fl (fl x) = fl x

/-- The exponent of the last of 53 bits of `x`. -/
def ulp (x : ℚ) : ℤ := Int.log 2 |x| - 52

/-- IEEE 754 binary64, round to nearest with halves to even, without limits on the exponent. -/
def rnd (x : ℚ) : ℚ := if x = 0 then 0 else (rint (x / 2 ^ ulp x) : ℚ) * 2 ^ ulp x

theorem rint_int (n : ℤ) : rint (n : ℚ) = n := by
  unfold rint
  rw [Int.floor_intCast, if_pos (by rw [sub_self]; norm_num)]

theorem rint_bounds (q : ℚ) : |(rint q : ℚ) - q| ≤ 1 / 2 := by
  have h1 := Int.floor_le q
  have h2 := Int.lt_floor_add_one q
  unfold rint
  rw [abs_le]
  by_cases c1 : q - ⌊q⌋ < 1 / 2
  · rw [if_pos c1]; constructor <;> linarith
  · rw [if_neg c1]
    by_cases c2 : 1 / 2 < q - ⌊q⌋
    · rw [if_pos c2]; push_cast; constructor <;> linarith
    · rw [if_neg c2]
      by_cases c3 : ⌊q⌋ % 2 = 0
      · rw [if_pos c3]; constructor <;> linarith
      · rw [if_neg c3]; push_cast; constructor <;> linarith

theorem rint_near (q : ℚ) (n : ℤ) (h : |q - n| < 1 / 2) : rint q = n := by
  have h1 := abs_le.1 (rint_bounds q)
  have h2 := abs_lt.1 h
  have h3 : |((rint q : ℚ) - n)| < 1 := by rw [abs_lt]; constructor <;> linarith
  have h4 : |rint q - n| < 1 := by exact_mod_cast h3
  have := Int.abs_lt_one_iff.1 h4
  omega

theorem rint_mono : Monotone rint := by
  intro p q h
  have hf : ⌊p⌋ ≤ ⌊q⌋ := Int.floor_le_floor h
  have p1 := Int.floor_le p
  have p2 := Int.lt_floor_add_one p
  have q1 := Int.floor_le q
  have q2 := Int.lt_floor_add_one q
  have up : rint p ≤ ⌊p⌋ + 1 := by
    unfold rint
    by_cases c1 : p - ⌊p⌋ < 1 / 2
    · rw [if_pos c1]; omega
    · rw [if_neg c1]
      by_cases c2 : 1 / 2 < p - ⌊p⌋
      · rw [if_pos c2]
      · rw [if_neg c2]
        by_cases c3 : ⌊p⌋ % 2 = 0
        · rw [if_pos c3]; omega
        · rw [if_neg c3]
  have lo : ⌊q⌋ ≤ rint q := by
    unfold rint
    by_cases c1 : q - ⌊q⌋ < 1 / 2
    · rw [if_pos c1]
    · rw [if_neg c1]
      by_cases c2 : 1 / 2 < q - ⌊q⌋
      · rw [if_pos c2]; omega
      · rw [if_neg c2]
        by_cases c3 : ⌊q⌋ % 2 = 0
        · rw [if_pos c3]
        · rw [if_neg c3]; omega
  by_cases e : ⌊p⌋ = ⌊q⌋
  · have ef : (⌊p⌋ : ℚ) = ⌊q⌋ := by exact_mod_cast e
    unfold rint
    rw [← e]
    by_cases c1 : p - ⌊p⌋ < 1 / 2
    · rw [if_pos c1]
      by_cases d1 : q - ⌊p⌋ < 1 / 2
      · rw [if_pos d1]
      · rw [if_neg d1]
        by_cases d2 : 1 / 2 < q - ⌊p⌋
        · rw [if_pos d2]; omega
        · rw [if_neg d2]
          by_cases d3 : ⌊p⌋ % 2 = 0
          · rw [if_pos d3]
          · rw [if_neg d3]; omega
    · rw [if_neg c1, if_neg (by linarith : ¬ q - ⌊p⌋ < 1 / 2)]
      by_cases c2 : 1 / 2 < p - ⌊p⌋
      · rw [if_pos c2, if_pos (by linarith : 1 / 2 < q - ⌊p⌋)]
      · rw [if_neg c2]
        by_cases d2 : 1 / 2 < q - ⌊p⌋
        · rw [if_pos d2]
          by_cases d3 : ⌊p⌋ % 2 = 0
          · rw [if_pos d3]; omega
          · rw [if_neg d3]
        · rw [if_neg d2]
  · omega

theorem rint_neg (q : ℚ) : rint (-q) = -rint q := by
  by_cases hi : (⌊q⌋ : ℚ) = q
  · rw [← hi, ← Int.cast_neg, rint_int, rint_int]
  · have h1 := Int.floor_le q
    have h2 := Int.lt_floor_add_one q
    have h3 : (⌊q⌋ : ℚ) < q := lt_of_le_of_ne h1 hi
    have e : ⌊-q⌋ = -⌊q⌋ - 1 := by
      rw [Int.floor_eq_iff]; push_cast; constructor <;> linarith
    unfold rint
    rw [e]
    push_cast
    by_cases c1 : q - ⌊q⌋ < 1 / 2
    · rw [if_pos c1, if_neg (by linarith), if_pos (by linarith)]; omega
    · rw [if_neg c1]
      by_cases c2 : 1 / 2 < q - ⌊q⌋
      · rw [if_pos c2, if_pos (by linarith)]; omega
      · rw [if_neg c2, if_neg (by linarith), if_neg (by linarith)]
        by_cases c3 : ⌊q⌋ % 2 = 0
        · rw [if_pos c3, if_neg (by omega)]; omega
        · rw [if_neg c3, if_pos (by omega)]; omega

theorem two_pow_pos (k : ℤ) : (0 : ℚ) < 2 ^ k := zpow_pos (by norm_num) k

theorem log_bounds (x : ℚ) (h : x ≠ 0) : (2 : ℚ) ^ (ulp x + 52) ≤ |x| ∧ |x| < 2 ^ (ulp x + 53) := by
  have hx : 0 < |x| := abs_pos.2 h
  have e : ulp x + 52 = Int.log 2 |x| := by unfold ulp; ring
  have e' : ulp x + 53 = Int.log 2 |x| + 1 := by unfold ulp; ring
  rw [e, e']
  exact ⟨by simpa using Int.zpow_log_le_self (b := 2) (by norm_num) hx, by simpa using Int.lt_zpow_succ_log_self (b := 2) (by norm_num) |x|⟩

theorem rnd_err (x : ℚ) : |rnd x - x| ≤ 1 / 2 ^ 53 * |x| := by
  unfold rnd
  by_cases h : x = 0
  · rw [if_pos h, h]; norm_num
  · rw [if_neg h]
    have p := two_pow_pos (ulp x)
    have b := (log_bounds x h).1
    rw [zpow_add₀ (by norm_num)] at b
    have e : (rint (x / 2 ^ ulp x) : ℚ) * 2 ^ ulp x - x = ((rint (x / 2 ^ ulp x) : ℚ) - x / 2 ^ ulp x) * 2 ^ ulp x := by
      field_simp
    rw [e, abs_mul, abs_of_pos p]
    have r := rint_bounds (x / 2 ^ ulp x)
    have : |(rint (x / 2 ^ ulp x) : ℚ) - x / 2 ^ ulp x| * 2 ^ ulp x ≤ 1 / 2 * 2 ^ ulp x :=
      mul_le_mul_of_nonneg_right r p.le
    have b2 : (2 : ℚ) ^ ulp x * 2 ^ 52 ≤ |x| := by exact_mod_cast b
    norm_num at b2 ⊢
    linarith

theorem rnd_neg (x : ℚ) : rnd (-x) = -rnd x := by
  unfold rnd
  by_cases h : x = 0
  · rw [h]; simp
  · have u : ulp (-x) = ulp x := by unfold ulp; rw [abs_neg]
    rw [if_neg h, if_neg (by simpa using h), u, neg_div, rint_neg]
    push_cast; ring

/-- A multiple of the last bit is not changed. -/
theorem rnd_fixed (x : ℚ) (n : ℤ) (h : x = n * 2 ^ ulp x) : rnd x = x := by
  unfold rnd
  by_cases h0 : x = 0
  · rw [if_pos h0, h0]
  · rw [if_neg h0]
    have p := two_pow_pos (ulp x)
    have e : x / 2 ^ ulp x = n := by
      rw [div_eq_iff p.ne']; exact h
    rw [e, rint_int, ← h]

theorem zpow_lt_zpow_iff_two {a b : ℤ} : (2 : ℚ) ^ a < 2 ^ b ↔ a < b := zpow_lt_zpow_iff_right₀ (by norm_num)

theorem zpow_le_zpow_iff_two {a b : ℤ} : (2 : ℚ) ^ a ≤ 2 ^ b ↔ a ≤ b := zpow_le_zpow_iff_right₀ (by norm_num)

theorem two_zpow_nat (n : ℕ) : (2 : ℚ) ^ (n : ℤ) = ((2 ^ n : ℤ) : ℚ) := by rw [zpow_natCast]; push_cast; rfl

theorem two_zpow_int {k : ℤ} (h : 0 ≤ k) : ∃ n : ℤ, (2 : ℚ) ^ k = n := by
  obtain ⟨n, rfl⟩ := Int.eq_ofNat_of_zero_le h
  exact ⟨2 ^ n, two_zpow_nat n⟩

theorem rnd_exact (m k : ℤ) (h : |m| ≤ 2 ^ 53) : rnd ((m : ℚ) * 2 ^ k) = (m : ℚ) * 2 ^ k := by
  by_cases hm : m = 0
  · subst hm; simp [rnd]
  set x : ℚ := (m : ℚ) * 2 ^ k with hx
  have hx0 : x ≠ 0 := mul_ne_zero (by exact_mod_cast hm) (two_pow_pos k).ne'
  obtain ⟨b1, b2⟩ := log_bounds x hx0
  have ha : |x| = (|m| : ℤ) * 2 ^ k := by rw [hx, abs_mul, abs_of_pos (two_pow_pos k), Int.cast_abs]
  have hle : |x| ≤ 2 ^ (k + 53) := by
    rw [ha, zpow_add₀ (by norm_num), mul_comm]
    refine mul_le_mul_of_nonneg_left ?_ (two_pow_pos k).le
    have : ((|m| : ℤ) : ℚ) ≤ ((2 ^ 53 : ℤ) : ℚ) := by exact_mod_cast h
    refine le_trans this ?_
    norm_num
  have key : ulp x ≤ k ∨ (ulp x = k + 1 ∧ |x| = 2 ^ (k + 53)) := by
    by_cases c : ulp x ≤ k
    · exact Or.inl c
    · right
      have h1 : (2 : ℚ) ^ (ulp x + 52) ≤ 2 ^ (k + 53) := le_trans b1 hle
      rw [zpow_le_zpow_iff_two] at h1
      have e : ulp x = k + 1 := by omega
      refine ⟨e, le_antisymm hle ?_⟩
      rw [e] at b1
      rwa [show k + 1 + 52 = k + 53 by ring] at b1
  rcases key with hk | ⟨e, hk⟩
  · obtain ⟨n, hn⟩ := two_zpow_int (show 0 ≤ k - ulp x by omega)
    refine rnd_fixed x (m * n) ?_
    push_cast
    rw [← hn, mul_assoc, ← zpow_add₀ (by norm_num), sub_add_cancel]
  · have h52 : (2 : ℚ) ^ (k + 53) = ((2 ^ 52 : ℤ) : ℚ) * 2 ^ ulp x := by
      rw [e, show k + 53 = (52 : ℤ) + (k + 1) by ring, zpow_add₀ (by norm_num)]
      norm_num
    rcases abs_cases x with ⟨a, _⟩ | ⟨a, _⟩
    · exact rnd_fixed x (2 ^ 52) (by rw [← h52, ← hk, a])
    · refine rnd_fixed x (-2 ^ 52) ?_
      have : x = -(((2 ^ 52 : ℤ) : ℚ) * 2 ^ ulp x) := by rw [← h52, ← hk, a, neg_neg]
      rw [Int.cast_neg, neg_mul]
      exact this

theorem rnd_nonneg {x : ℚ} (h : 0 ≤ x) : 0 ≤ rnd x := by
  have := rnd_err x
  rw [abs_of_nonneg h, abs_le] at this
  have e : (1 : ℚ) / 2 ^ 53 * x ≤ x := by
    have : (1 : ℚ) / 2 ^ 53 ≤ 1 := by norm_num
    nlinarith
  linarith [this.1]

theorem rnd_pos_bounds {x : ℚ} (h : 0 < x) : 2 ^ (ulp x + 52) ≤ rnd x ∧ rnd x ≤ 2 ^ (ulp x + 53) := by
  obtain ⟨b1, b2⟩ := log_bounds x h.ne'
  rw [abs_of_pos h] at b1 b2
  have p := two_pow_pos (ulp x)
  have e : ∀ n : ℕ, (2 : ℚ) ^ (ulp x + n) = ((2 ^ n : ℤ) : ℚ) * 2 ^ ulp x := by
    intro n
    rw [add_comm, zpow_add₀ (by norm_num), two_zpow_nat]
  have e52 := e 52
  have e53 := e 53
  simp only [Nat.cast_ofNat] at e52 e53
  unfold rnd
  rw [if_neg h.ne']
  constructor
  · rw [e52]
    refine mul_le_mul_of_nonneg_right ?_ p.le
    have : rint ((2 ^ 52 : ℤ) : ℚ) ≤ rint (x / 2 ^ ulp x) := by
      refine rint_mono ?_
      rw [le_div_iff₀ p, ← e52]; exact b1
    rw [rint_int] at this
    exact_mod_cast this
  · rw [e53]
    refine mul_le_mul_of_nonneg_right ?_ p.le
    have : rint (x / 2 ^ ulp x) ≤ rint ((2 ^ 53 : ℤ) : ℚ) := by
      refine rint_mono ?_
      rw [div_le_iff₀ p, ← e53]; exact b2.le
    rw [rint_int] at this
    exact_mod_cast this

theorem rnd_mono_pos {x y : ℚ} (h : 0 < x) (hy : x ≤ y) : rnd x ≤ rnd y := by
  have hy0 : 0 < y := lt_of_lt_of_le h hy
  by_cases e : ulp x = ulp y
  · unfold rnd
    rw [if_neg h.ne', if_neg hy0.ne', e]
    have p := two_pow_pos (ulp y)
    refine mul_le_mul_of_nonneg_right ?_ p.le
    have : rint (x / 2 ^ ulp y) ≤ rint (y / 2 ^ ulp y) := rint_mono (div_le_div_of_nonneg_right hy p.le)
    exact_mod_cast this
  · obtain ⟨b1, b2⟩ := log_bounds x h.ne'
    obtain ⟨c1, c2⟩ := log_bounds y hy0.ne'
    rw [abs_of_pos h] at b1 b2
    rw [abs_of_pos hy0] at c1 c2
    have hlt : (2 : ℚ) ^ (ulp x + 52) < 2 ^ (ulp y + 53) := lt_of_le_of_lt b1 (lt_of_le_of_lt hy c2)
    rw [zpow_lt_zpow_iff_two] at hlt
    have hle : ulp x + 53 ≤ ulp y + 52 := by omega
    exact le_trans (rnd_pos_bounds h).2 (le_trans (zpow_le_zpow_iff_two.2 hle) (rnd_pos_bounds hy0).1)

theorem rnd_mono : Monotone rnd := by
  intro x y h
  rcases lt_trichotomy x 0 with hx | hx | hx
  · rcases lt_or_ge y 0 with hy | hy
    · have := rnd_mono_pos (x := -y) (y := -x) (by linarith) (by linarith)
      rw [rnd_neg, rnd_neg] at this
      linarith
    · have h1 := rnd_nonneg hy
      have h2 := rnd_nonneg (x := -x) (by linarith)
      rw [rnd_neg] at h2
      linarith
  · subst hx
    have : rnd 0 = 0 := by simp [rnd]
    rw [this]; exact rnd_nonneg h
  · exact rnd_mono_pos hx h

theorem rnd_idem (x : ℚ) : rnd (rnd x) = rnd x := by
  by_cases h : x = 0
  · subst h; simp [rnd]
  · -- `rnd x` is a multiple of the last bit of `x` with at most 53 bits
    have e : rnd x = (rint (x / 2 ^ ulp x) : ℚ) * 2 ^ ulp x := by
      conv_lhs => unfold rnd
      rw [if_neg h]
    rw [e]
    refine rnd_exact _ _ ?_
    have p := two_pow_pos (ulp x)
    obtain ⟨b1, b2⟩ := log_bounds x h
    have h2 : |x / 2 ^ ulp x| ≤ ((2 ^ 53 : ℤ) : ℚ) := by
      rw [abs_div, abs_of_pos p, div_le_iff₀ p]
      refine le_trans b2.le ?_
      rw [zpow_add₀ (by norm_num), mul_comm]
      refine mul_le_mul_of_nonneg_right ?_ p.le
      norm_num
    rw [abs_le] at h2 ⊢
    have hi : rint (x / 2 ^ ulp x) ≤ rint ((2 ^ 53 : ℤ) : ℚ) := rint_mono h2.2
    have lo : rint (-((2 ^ 53 : ℤ) : ℚ)) ≤ rint (x / 2 ^ ulp x) := rint_mono h2.1
    rw [rint_neg, rint_int] at lo
    rw [rint_int] at hi
    exact ⟨lo, hi⟩

/-- IEEE 754 double precision meets the assumptions. -/
def double : Rounding := ⟨rnd, rnd_err, rnd_mono, rnd_exact, rnd_idem⟩

/-! ### Consequences of the assumptions -/

namespace Rounding

variable (R : Rounding)

theorem zero : R.fl 0 = 0 := by
  have := R.exact 0 0 (by norm_num)
  simpa using this

theorem int (n : ℤ) (h : |n| ≤ 2 ^ 53) : R.fl n = n := by
  have := R.exact n 0 h
  simpa using this

theorem rel (x : ℚ) : ∃ d : ℚ, |d| ≤ 1 / 2 ^ 53 ∧ R.fl x = x * (1 + d) := by
  by_cases h : x = 0
  · subst h; exact ⟨0, by norm_num, by rw [R.zero]; ring⟩
  · refine ⟨(R.fl x - x) / x, ?_, by field_simp; ring⟩
    rw [abs_div, div_le_iff₀ (abs_pos.2 h)]
    exact R.err x

theorem nonneg {x : ℚ} (h : 0 ≤ x) : 0 ≤ R.fl x := by
  have := R.mono h
  rwa [R.zero] at this

theorem nonpos {x : ℚ} (h : x ≤ 0) : R.fl x ≤ 0 := by
  have := R.mono h
  rwa [R.zero] at this

theorem pos {x : ℚ} (h : 0 < x) : 0 < R.fl x := by
  obtain ⟨d, hd, e⟩ := R.rel x
  rw [abs_le] at hd
  rw [e]
  refine mul_pos h ?_
  have : (1 : ℚ) / 2 ^ 53 < 1 := by norm_num
  linarith [hd.1]

theorem neg {x : ℚ} (h : x < 0) : R.fl x < 0 := by
  obtain ⟨d, hd, e⟩ := R.rel x
  rw [abs_le] at hd
  rw [e]
  refine mul_neg_of_neg_of_pos h ?_
  have : (1 : ℚ) / 2 ^ 53 < 1 := by norm_num
  linarith [hd.1]

theorem eq_zero {x : ℚ} : R.fl x = 0 ↔ x = 0 := by
  constructor
  · intro h
    rcases lt_trichotomy x 0 with c | c | c
    · exact absurd h (R.neg c).ne
    · exact c
    · exact absurd h (R.pos c).ne'
  · rintro rfl; exact R.zero

end Rounding

/-- The double nearest to one tenth, and a sum that is not exact. -/
example : rnd (1 / 10) = 3602879701896397 / 2 ^ 55 ∧ rnd (rnd (1 / 10) + rnd (2 / 10)) ≠ rnd (3 / 10) := by
  decide +kernel

end Karta.Float
