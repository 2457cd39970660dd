import Mathlib.Analysis.SpecialFunctions.Complex.Arg
import Mathlib.Analysis.SpecialFunctions.Trigonometric.Inverse
import Mathlib.Data.Real.Sqrt
import Mathlib.Tactic.Linarith
import Mathlib.Tactic.FieldSimp
import Mathlib.Tactic.Ring
import Verif.Py

/-!
Real versions of the library functions used by the geodetic code, with their basic facts.  These
model Python and libm, not the repository; rounding is not modelled.
-/

namespace Karta.Geod
open Karta

/-- `math.atan2(y, x)`.  (Signed zeros are not distinguished: `atan2(-0.0, -1)` is taken as pi.) -/
noncomputable def atan2 (y x : ℝ) : ℝ := Complex.arg ⟨x, y⟩

/-- `x % m` of Python for a positive float `m`. -/
noncomputable def pyModR (x m : ℝ) : ℝ := x - m * (⌊x / m⌋ : ℤ)

theorem pyModR_mem (x : ℝ) {m : ℝ} (hm : 0 < m) : 0 ≤ pyModR x m ∧ pyModR x m < m := by
  unfold pyModR
  have h1 := Int.floor_le (x / m)
  have h2 := Int.lt_floor_add_one (x / m)
  rw [le_div_iff₀ hm] at h1
  rw [div_lt_iff₀ hm] at h2
  constructor <;> nlinarith

theorem pyModR_cong (x m : ℝ) : ∃ k : ℤ, pyModR x m = x + m * k := ⟨-⌊x / m⌋, by unfold pyModR; push_cast; ring⟩

theorem pyModR_add (x : ℝ) {m : ℝ} (hm : 0 < m) (k : ℤ) : pyModR (x + m * k) m = pyModR x m := by
  unfold pyModR
  have : (x + m * k) / m = x / m + k := by field_simp
  rw [this, Int.floor_add_intCast]
  push_cast
  ring

theorem pyModR_self {x m : ℝ} (h0 : 0 ≤ x) (h1 : x < m) : pyModR x m = x := by
  have hm : 0 < m := lt_of_le_of_lt h0 h1
  unfold pyModR
  have : ⌊x / m⌋ = 0 := by
    rw [Int.floor_eq_zero_iff]
    exact ⟨div_nonneg h0 hm.le, (div_lt_one hm).mpr h1⟩
  rw [this]; simp

theorem norm_mk (x y : ℝ) : ‖(⟨x, y⟩ : ℂ)‖ = Real.sqrt (x ^ 2 + y ^ 2) := by
  rw [Complex.norm_def, Complex.normSq_mk]
  congr 1
  ring

/-- `atan2` is the polar angle. -/
theorem atan2_cos (y x : ℝ) : Real.sqrt (x ^ 2 + y ^ 2) * Real.cos (atan2 y x) = x := by
  have h := Complex.norm_mul_cos_arg ⟨x, y⟩
  rw [norm_mk] at h
  exact h

theorem atan2_sin (y x : ℝ) : Real.sqrt (x ^ 2 + y ^ 2) * Real.sin (atan2 y x) = y := by
  have h := Complex.norm_mul_sin_arg ⟨x, y⟩
  rw [norm_mk] at h
  exact h

theorem atan2_mem (y x : ℝ) : -Real.pi < atan2 y x ∧ atan2 y x ≤ Real.pi := Complex.arg_mem_Ioc _

theorem mk_polar (r θ : ℝ) : (⟨r * Real.cos θ, r * Real.sin θ⟩ : ℂ) = r * (Complex.cos θ + Complex.sin θ * Complex.I) := by
  apply Complex.ext
  · simp [← Complex.ofReal_cos, ← Complex.ofReal_sin]
  · simp [← Complex.ofReal_cos, ← Complex.ofReal_sin]

theorem atan2_polar {r θ : ℝ} (hr : 0 < r) (h1 : -Real.pi < θ) (h2 : θ ≤ Real.pi) :
    atan2 (r * Real.sin θ) (r * Real.cos θ) = θ := by
  unfold atan2
  rw [mk_polar]
  exact Complex.arg_mul_cos_add_sin_mul_I hr ⟨h1, h2⟩

theorem atan2_polar_cong {r : ℝ} (hr : 0 < r) (θ : ℝ) :
    ∃ k : ℤ, atan2 (r * Real.sin θ) (r * Real.cos θ) = θ + 2 * Real.pi * k := by
  refine ⟨⌊(Real.pi - θ) / (2 * Real.pi)⌋, ?_⟩
  unfold atan2
  rw [mk_polar]
  have := Complex.arg_mul_cos_add_sin_mul_I_sub hr θ
  linarith

end Karta.Geod
