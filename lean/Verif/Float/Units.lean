import Verif.Float.Coord
import Verif.Grid.Sample
import Verif.Grid.Window

/-!
# Coordinates in whole units

Numbers that are whole multiples of a power of two (metres, halves of metres, …) are exact as doubles as long as there are fewer than
`2 ^ 53` of them, and so are their sums.  Quotients are rounded, but never across a whole or half number.
-/

namespace Karta.Float
open Karta Karta.Grid

/-- `x` is a whole multiple of `2 ^ k`, at most `B` times. -/
def InUnits (k B : ℤ) (x : ℚ) : Prop := ∃ n : ℤ, |n| ≤ B ∧ x = n * 2 ^ k

variable (R : Rounding)

theorem InUnits.mono {k B C : ℤ} {x : ℚ} (h : InUnits k B x) (hBC : B ≤ C) : InUnits k C x := by
  obtain ⟨n, hn, e⟩ := h
  exact ⟨n, le_trans hn hBC, e⟩

theorem InUnits.exact {k B : ℤ} {x : ℚ} (h : InUnits k B x) (hB : B ≤ 2 ^ 53) : R.fl x = x := by
  obtain ⟨n, hn, rfl⟩ := h
  exact R.exact n k (le_trans hn hB)

theorem InUnits.add {k B C : ℤ} {x y : ℚ} (hx : InUnits k B x) (hy : InUnits k C y) : InUnits k (B + C) (x + y) := by
  obtain ⟨n, hn, rfl⟩ := hx
  obtain ⟨m, hm, rfl⟩ := hy
  exact ⟨n + m, le_trans (abs_add_le n m) (by omega), by push_cast; ring⟩

theorem InUnits.sub {k B C : ℤ} {x y : ℚ} (hx : InUnits k B x) (hy : InUnits k C y) : InUnits k (B + C) (x - y) := by
  obtain ⟨n, hn, rfl⟩ := hx
  obtain ⟨m, hm, rfl⟩ := hy
  exact ⟨n - m, le_trans (abs_sub n m) (by omega), by push_cast; ring⟩

theorem InUnits.mul_int {k B C : ℤ} {x : ℚ} (hx : InUnits k B x) {m : ℤ} (hm : |m| ≤ C) : InUnits k (B * C) (x * m) := by
  obtain ⟨n, hn, rfl⟩ := hx
  refine ⟨n * m, ?_, by push_cast; ring⟩
  rw [abs_mul]
  exact mul_le_mul hn hm (abs_nonneg _) (le_trans (abs_nonneg _) hn)

theorem InUnits.mul {k l B C : ℤ} {x y : ℚ} (hx : InUnits k B x) (hy : InUnits l C y) : InUnits (k + l) (B * C) (x * y) := by
  obtain ⟨n, hn, rfl⟩ := hx
  obtain ⟨m, hm, rfl⟩ := hy
  refine ⟨n * m, ?_, ?_⟩
  · rw [abs_mul]
    exact mul_le_mul hn hm (abs_nonneg _) (le_trans (abs_nonneg _) hn)
  · rw [zpow_add₀ (by norm_num)]; push_cast; ring

theorem InUnits.min {k B : ℤ} {x y : ℚ} (hx : InUnits k B x) (hy : InUnits k B y) : InUnits k B (min x y) := by
  rcases min_choice x y with e | e <;> rw [e] <;> assumption

theorem InUnits.max {k B : ℤ} {x y : ℚ} (hx : InUnits k B x) (hy : InUnits k B y) : InUnits k B (max x y) := by
  rcases max_choice x y with e | e <;> rw [e] <;> assumption

/-- A fraction of integers of at most 50 bits. -/
def Tame (q : ℚ) : Prop := ∃ A B : ℤ, B ≠ 0 ∧ |A| ≤ 2 ^ 50 ∧ |B| ≤ 2 ^ 50 ∧ q = A / B

theorem InUnits.div {k : ℤ} {x y : ℚ} (hx : InUnits k (2 ^ 50) x) (hy : InUnits k (2 ^ 50) y) (h0 : y ≠ 0) : Tame (x / y) := by
  obtain ⟨n, hn, rfl⟩ := hx
  obtain ⟨m, hm, rfl⟩ := hy
  have p := two_pow_pos k
  refine ⟨n, m, ?_, hn, hm, by rw [mul_div_mul_right _ _ p.ne']⟩
  rintro rfl
  exact h0 (by push_cast; ring)

/-- Rounding a fraction does not move it to or across a whole or half number; it stays `2 ^ (-52)` away. -/
theorem Tame.half {q : ℚ} (hq : Tame q) (m : ℤ) :
    (q < m / 2 → R.fl q ≤ m / 2 - 1 / 2 ^ 52) ∧ (q = m / 2 → R.fl q = m / 2) ∧ (m / 2 < q → m / 2 + 1 / 2 ^ 52 ≤ R.fl q) := by
  obtain ⟨A, B, hB, hA, hB2, rfl⟩ := hq
  have hb : (0 : ℚ) < |(B : ℚ)| := abs_pos.2 (by exact_mod_cast hB)
  have hBq : (B : ℚ) ≠ 0 := by exact_mod_cast hB
  have hA' : |(A : ℚ)| ≤ 2 ^ 50 := by exact_mod_cast hA
  have hB' : |(B : ℚ)| ≤ 2 ^ 50 := by exact_mod_cast hB2
  set q : ℚ := A / B with hq
  have herr : |R.fl q - q| ≤ 1 / 8 * (1 / |(B : ℚ)|) := by
    refine le_trans (R.err q) ?_
    rw [hq, abs_div, div_eq_mul_one_div |(A : ℚ)|]
    have : |(A : ℚ)| * (1 / |(B : ℚ)|) ≤ 2 ^ 50 * (1 / |(B : ℚ)|) := mul_le_mul_of_nonneg_right hA' (by positivity)
    norm_num at this ⊢
    linarith
  have hgap : q ≠ m / 2 → 1 / 2 * (1 / |(B : ℚ)|) ≤ |q - m / 2| := by
    intro hne
    have e : q - m / 2 = ((2 * A - m * B : ℤ) : ℚ) / (2 * B) := by
      rw [hq]; push_cast; field_simp
    have hz : (2 * A - m * B : ℤ) ≠ 0 := by
      intro h0
      apply hne
      have : q - m / 2 = 0 := by rw [e, h0]; simp
      linarith
    have h1 : (1 : ℚ) ≤ |((2 * A - m * B : ℤ) : ℚ)| := by
      have := Int.one_le_abs hz
      exact_mod_cast this
    rw [e, abs_div, abs_mul, abs_of_pos (by norm_num : (0 : ℚ) < 2)]
    rw [show 1 / 2 * (1 / |(B : ℚ)|) = 1 / (2 * |(B : ℚ)|) by rw [one_div_mul_one_div]]
    exact div_le_div_of_nonneg_right h1 (by positivity)
  have hsmall : 1 / 2 ^ 52 ≤ 3 / 8 * (1 / |(B : ℚ)|) := by
    have : 1 / (2 : ℚ) ^ 50 ≤ 1 / |(B : ℚ)| := one_div_le_one_div_of_le hb hB'
    norm_num at this ⊢
    linarith
  have he := abs_le.1 herr
  refine ⟨?_, ?_, ?_⟩
  · intro h
    have g := hgap h.ne
    rw [abs_of_neg (by linarith : q - m / 2 < 0)] at g
    linarith [he.2]
  · intro h
    rw [h]
    have := R.exact m (-1) ?_
    · rw [zpow_neg_one] at this
      rw [div_eq_mul_inv]; exact this
    · have h2 : (m : ℚ) = 2 * q := by rw [h]; ring
      have h3 : |q| ≤ 2 ^ 50 := by
        rw [hq, abs_div, div_le_iff₀ hb]
        have : (1 : ℚ) ≤ |(B : ℚ)| := by exact_mod_cast Int.one_le_abs hB
        nlinarith
      have h4 : |(m : ℚ)| ≤ 2 ^ 51 := by
        rw [h2, abs_mul, abs_of_pos (by norm_num : (0 : ℚ) < 2)]
        norm_num at h3 ⊢; linarith
      have h5 : |m| ≤ 2 ^ 51 := by exact_mod_cast h4
      exact le_trans h5 (by norm_num)
  · intro h
    have g := hgap h.ne'
    rw [abs_of_pos (by linarith : 0 < q - m / 2)] at g
    linarith [he.1]

/-- `p` and `q` are on the same side of every whole and half number. -/
def Same (p q : ℚ) : Prop := ∀ m : ℤ, (p < m / 2 ↔ q < m / 2) ∧ (m / 2 < p ↔ m / 2 < q)

theorem Same.refl (q : ℚ) : Same q q := fun _ => ⟨Iff.rfl, Iff.rfl⟩

theorem Tame.same {q : ℚ} (hq : Tame q) : Same (R.fl q) q := by
  intro m
  obtain ⟨h1, h2, h3⟩ := hq.half R m
  have p : (0 : ℚ) < 1 / 2 ^ 52 := by positivity
  rcases lt_trichotomy q (m / 2) with h | h | h
  · have := h1 h; exact ⟨⟨fun _ => h, fun _ => by linarith⟩, ⟨fun c => by linarith, fun c => by linarith⟩⟩
  · have := h2 h
    exact ⟨⟨fun c => by linarith, fun c => by linarith⟩, ⟨fun c => by linarith, fun c => by linarith⟩⟩
  · have := h3 h
    exact ⟨⟨fun c => by linarith, fun c => by linarith⟩, ⟨fun _ => h, fun _ => by linarith⟩⟩

theorem two_mul_half (n : ℤ) : (((2 * n : ℤ) : ℚ) / 2) = n := by push_cast; ring

theorem Same.floor {p q : ℚ} (h : Same p q) : ⌊p⌋ = ⌊q⌋ := by
  have h : ∀ n : ℤ, (n : ℚ) ≤ p ↔ (n : ℚ) ≤ q := by
    intro n
    have := (h (2 * n)).1
    rw [two_mul_half] at this
    rw [← not_lt, ← not_lt, this]
  apply le_antisymm
  · rw [Int.le_floor]; exact (h _).1 (Int.floor_le _)
  · rw [Int.le_floor]; exact (h _).2 (Int.floor_le _)

theorem Same.ceil {p q : ℚ} (h : Same p q) : ⌈p⌉ = ⌈q⌉ := by
  have h : ∀ n : ℤ, p ≤ (n : ℚ) ↔ q ≤ (n : ℚ) := by
    intro n
    have := (h (2 * n)).2
    rw [two_mul_half] at this
    rw [← not_lt, ← not_lt, this]
  apply le_antisymm
  · rw [Int.ceil_le]; exact (h _).2 (Int.le_ceil _)
  · rw [Int.ceil_le]; exact (h _).1 (Int.le_ceil _)

theorem Same.frac_lt {p q : ℚ} (h : Same p q) : p - ⌊q⌋ < 1 / 2 ↔ q - ⌊q⌋ < 1 / 2 := by
  have := (h (2 * ⌊q⌋ + 1)).1
  push_cast at this
  constructor
  · intro h; have := this.1 (by linarith); linarith
  · intro h; have := this.2 (by linarith); linarith

theorem Same.lt_frac {p q : ℚ} (h : Same p q) : 1 / 2 < p - ⌊q⌋ ↔ 1 / 2 < q - ⌊q⌋ := by
  have := (h (2 * ⌊q⌋ + 1)).2
  push_cast at this
  constructor
  · intro h; have := this.1 (by linarith); linarith
  · intro h; have := this.2 (by linarith); linarith

theorem Same.rint {p q : ℚ} (h : Same p q) : rint p = rint q := by
  unfold Karta.Grid.rint
  rw [h.floor]
  simp only [h.frac_lt, h.lt_frac]

theorem Same.trunc {p q : ℚ} (h : Same p q) : trunc p = trunc q := by
  unfold Karta.Grid.trunc
  have h0 : 0 ≤ p ↔ 0 ≤ q := by
    have := (h 0).1
    simp only [Int.cast_zero, zero_div] at this
    rw [← not_lt, ← not_lt, this]
  simp only [h0, h.floor, h.ceil]

theorem Same.min {a b c d : ℚ} (h : Same a c) (k : Same b d) : Same (min a b) (min c d) := by
  intro m
  simp only [min_lt_iff, lt_min_iff, (h m).1, (h m).2, (k m).1, (k m).2, and_self]

theorem Same.max {a b c d : ℚ} (h : Same a c) (k : Same b d) : Same (max a b) (max c d) := by
  intro m
  simp only [max_lt_iff, lt_max_iff, (h m).1, (h m).2, (k m).1, (k m).2, and_self]

/-- A fraction of smaller integers. -/
def Small (q : ℚ) : Prop := ∃ A B : ℤ, B ≠ 0 ∧ |A| ≤ 2 ^ 40 ∧ |B| ≤ 2 ^ 40 ∧ q = A / B

theorem Small.tame {q : ℚ} (h : Small q) : Tame q := by
  obtain ⟨A, B, h0, h1, h2, e⟩ := h
  exact ⟨A, B, h0, le_trans h1 (by norm_num), le_trans h2 (by norm_num), e⟩

theorem InUnits.small {k : ℤ} {x y : ℚ} (hx : InUnits k (2 ^ 40) x) (hy : InUnits k (2 ^ 40) y) (h0 : y ≠ 0) : Small (x / y) := by
  obtain ⟨n, hn, rfl⟩ := hx
  obtain ⟨m, hm, rfl⟩ := hy
  have p := two_pow_pos k
  refine ⟨n, m, ?_, hn, hm, by rw [mul_div_mul_right _ _ p.ne']⟩
  rintro rfl
  exact h0 (by push_cast; ring)

/-- Rounding a quotient and the quotient less one half does not cross whole or half numbers either. -/
theorem Small.minusHalf {q : ℚ} (hq : Small q) : Same (R.fl (R.fl q - 1 / 2)) (q - 1 / 2) := by
  have ht := hq.tame
  obtain ⟨A, B, hB, hA, hB2, hq⟩ := hq
  have hb : (0 : ℚ) < |(B : ℚ)| := abs_pos.2 (by exact_mod_cast hB)
  have hBq : (B : ℚ) ≠ 0 := by exact_mod_cast hB
  have hA' : |(A : ℚ)| ≤ 2 ^ 40 := by exact_mod_cast hA
  have hB' : |(B : ℚ)| ≤ 2 ^ 40 := by exact_mod_cast hB2
  have hinv : 1 / (2 : ℚ) ^ 40 ≤ 1 / |(B : ℚ)| := one_div_le_one_div_of_le hb hB'
  set β : ℚ := 1 / |(B : ℚ)| with hβ
  have hβ0 : 0 < β := by rw [hβ]; positivity
  have hqa : |q| ≤ 2 ^ 40 * β := by
    rw [hq, abs_div, div_eq_mul_one_div |(A : ℚ)|]
    exact mul_le_mul_of_nonneg_right hA' hβ0.le
  have e1 := R.err q
  set f := R.fl q with hf
  have e2 := R.err (f - 1 / 2)
  have e3 : |f - 1 / 2| ≤ |f - q| + (|q| + 1 / 2) := by
    have a := abs_add_le (f - q) (q - 1 / 2)
    have b := abs_sub q (1 / 2)
    rw [abs_of_pos (by norm_num : (0 : ℚ) < 1 / 2)] at b
    rw [show f - q + (q - 1 / 2) = f - 1 / 2 by ring] at a
    linarith
  set p := R.fl (f - 1 / 2) with hp
  have tot : |p - (q - 1 / 2)| ≤ 1 / 4 * β := by
    have a := abs_add_le (p - (f - 1 / 2)) (f - q)
    rw [show p - (f - 1 / 2) + (f - q) = p - (q - 1 / 2) by ring] at a
    norm_num at e1 e2 hqa hinv ⊢
    linarith
  have tot' := abs_le.1 tot
  intro m
  by_cases heq : q - 1 / 2 = m / 2
  · have h2 := (ht.half R (m + 1)).2.1 (by push_cast; linarith)
    have h3 : f - 1 / 2 = m / 2 := by rw [hf, h2]; push_cast; ring
    have hm : |m| ≤ 2 ^ 53 := by
      have h4 : (m : ℚ) = 2 * (q - 1 / 2) := by rw [heq]; ring
      have h1B : (1 : ℚ) ≤ |(B : ℚ)| := by exact_mod_cast Int.one_le_abs hB
      have hβ1 : β ≤ 1 := by rw [hβ, div_le_one hb]; exact h1B
      have h5 : |(m : ℚ)| ≤ 2 ^ 53 := by
        rw [h4, abs_mul, abs_of_pos (by norm_num : (0 : ℚ) < 2)]
        have b := abs_sub q (1 / 2)
        rw [abs_of_pos (by norm_num : (0 : ℚ) < 1 / 2)] at b
        norm_num at hqa ⊢
        linarith
      exact_mod_cast h5
    have h6 : p = m / 2 := by
      rw [hp, h3]
      have := R.exact m (-1) hm
      rw [zpow_neg_one] at this
      rw [div_eq_mul_inv]; exact this
    rw [h6, heq]
    exact ⟨Iff.rfl, Iff.rfl⟩
  · have hgap : 1 / 2 * β ≤ |q - 1 / 2 - m / 2| := by
      have e : q - 1 / 2 - m / 2 = ((2 * A - (m + 1) * B : ℤ) : ℚ) / (2 * B) := by
        rw [hq]; push_cast; field_simp; ring
      have hz : (2 * A - (m + 1) * B : ℤ) ≠ 0 := by
        intro h0
        apply heq
        have : q - 1 / 2 - m / 2 = 0 := by rw [e, h0]; simp
        linarith
      have h1 : (1 : ℚ) ≤ |((2 * A - (m + 1) * B : ℤ) : ℚ)| := by
        have := Int.one_le_abs hz
        exact_mod_cast this
      rw [e, abs_div, abs_mul, abs_of_pos (by norm_num : (0 : ℚ) < 2)]
      rw [show 1 / 2 * β = 1 / (2 * |(B : ℚ)|) by rw [hβ, one_div_mul_one_div]]
      exact div_le_div_of_nonneg_right h1 (by positivity)
    rcases lt_or_gt_of_ne heq with h | h
    · rw [abs_of_neg (by linarith)] at hgap
      exact ⟨⟨fun _ => h, fun _ => by linarith [tot'.2]⟩, ⟨fun c => by linarith [tot'.2], fun c => by linarith⟩⟩
    · rw [abs_of_pos (by linarith)] at hgap
      exact ⟨⟨fun c => by linarith [tot'.1], fun c => by linarith⟩, ⟨fun _ => h, fun _ => by linarith [tot'.1]⟩⟩

/-- `a % 1` in floating point: the remainder of C's `fmod` is exact, the addition of 1 for negative `a` is rounded. -/
def mod1F (a : ℚ) : ℚ := R.fl (a - ⌊a⌋)

/-- The local function `_round` of `resize` (grid.py 577-582). -/
def roundHalfDownF (a : ℚ) : Int := if mod1F R a ≤ 1 / 2 then ⌊a⌋ else ⌊a⌋ + 1

theorem Tame.roundHalfDown {q : ℚ} (hq : Tame q) : roundHalfDownF R (R.fl q) = roundHalfDown q := by
  unfold Karta.Grid.roundHalfDown roundHalfDownF mod1F
  rw [(hq.same R).floor]
  have hhalf : R.fl (1 / 2) = 1 / 2 := by
    have := R.exact 1 (-1) (by norm_num)
    norm_num at this ⊢
    exact this
  have h : R.fl (R.fl q - ⌊q⌋) ≤ 1 / 2 ↔ q - ⌊q⌋ ≤ 1 / 2 := by
    constructor
    · intro h
      by_contra hc
      push Not at hc
      have h3 := (hq.half R (2 * ⌊q⌋ + 1)).2.2 (by push_cast; linarith)
      push_cast at h3
      have h4 : 1 / 2 + 1 / 2 ^ 52 ≤ R.fl q - ⌊q⌋ := by linarith
      have h5 := R.mono h4
      have h6 : R.fl (1 / 2 + 1 / 2 ^ 52) = 1 / 2 + 1 / 2 ^ 52 := by
        have := R.exact (2 ^ 51 + 1) (-52) (by norm_num)
        norm_num at this ⊢
        exact this
      rw [h6] at h5
      norm_num at h5 h
      linarith
    · intro h
      have h1 : R.fl q - ⌊q⌋ ≤ 1 / 2 := by
        by_contra hc
        push Not at hc
        exact absurd ((hq.same R).lt_frac.1 hc) (not_lt.2 h)
      have := R.mono h1
      rwa [hhalf] at this
  simp only [h]

end Karta.Float
