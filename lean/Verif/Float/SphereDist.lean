import Verif.Float.Basic
import Verif.Geod.SphereProps
import Mathlib.Analysis.Real.Pi.Bounds
import Mathlib.Analysis.SpecialFunctions.Trigonometric.Bounds

/-!
# Distances on the sphere in floating point

Model of `sphere_distance` (karta/geodesy.py 95-108) with rounded arithmetic, and property C181.
-/

namespace Karta.Float.SphereF
open Karta Karta.Float Karta.Geod.Sphere

/-! ### Model -/

/-- The functions of the C library behind Python's `math`. -/
structure Trig where
  sin : ℚ → ℚ
  cos : ℚ → ℚ
  asin : ℚ → ℚ
  acos : ℚ → ℚ
  sqrt : ℚ → ℚ

/-- `sphere_distance` (geodesy.py 95-108), angles in radians.  `acos`, `asin` and `sqrt` raise ValueError outside their domains;
`x**2` is rounded like `x*x`. -/
def distF (R : Rounding) (T : Trig) (lon1 lat1 lon2 lat2 radius : ℚ) : Except Err ℚ :=
  let dx := |R.fl (lon1 - lon2)|
  let dy := |R.fl (lat1 - lat2)|
  if R.fl (1 / 100) < dx ∨ R.fl (1 / 100) < dy then
    let c := R.fl (R.fl (T.sin lat1 * T.sin lat2) + R.fl (R.fl (T.cos lat1 * T.cos lat2) * T.cos dx))
    if |c| ≤ 1 then .ok (R.fl (radius * T.acos c)) else .error .valueError
  else
    let sy := T.sin (R.fl (dy / 2))
    let sx := T.sin (R.fl (dx / 2))
    let h := R.fl (R.fl (sy * sy) + R.fl (R.fl (T.cos lat1 * T.cos lat2) * R.fl (sx * sx)))
    if h < 0 then .error .valueError
    else if |T.sqrt h| ≤ 1 then .ok (R.fl (radius * R.fl (2 * T.asin (T.sqrt h)))) else .error .valueError

/-! ### Assumptions -/

/-- The library is accurate to a unit in the last of 53 places, and sines and cosines are at most 1. -/
structure Trig.Accurate (T : Trig) : Prop where
  sin_err : ∀ x : ℚ, |(T.sin x : ℝ) - Real.sin x| ≤ 1 / 2 ^ 52 * |Real.sin x|
  cos_err : ∀ x : ℚ, |(T.cos x : ℝ) - Real.cos x| ≤ 1 / 2 ^ 52 * |Real.cos x|
  sin_le : ∀ x : ℚ, |(T.sin x : ℝ)| ≤ 1
  cos_le : ∀ x : ℚ, |(T.cos x : ℝ)| ≤ 1
  asin_err : ∀ x : ℚ, |x| ≤ 1 → |(T.asin x : ℝ) - Real.arcsin x| ≤ 1 / 2 ^ 52 * |Real.arcsin x|
  acos_err : ∀ x : ℚ, |x| ≤ 1 → |(T.acos x : ℝ) - Real.arccos x| ≤ 1 / 2 ^ 52 * |Real.arccos x|
  sqrt_err : ∀ x : ℚ, 0 ≤ x → |(T.sqrt x : ℝ) - Real.sqrt x| ≤ 1 / 2 ^ 53 * Real.sqrt x

/-! ### Relative errors -/

/-- `a'` differs from `a` by at most the part `e` of it. -/
def Rel (e a' a : ℝ) : Prop := 0 ≤ a ∧ |a' - a| ≤ e * a

theorem Rel.mono {e f a' a : ℝ} (h : Rel e a' a) (hf : e ≤ f) : Rel f a' a :=
  ⟨h.1, h.2.trans (mul_le_mul_of_nonneg_right hf h.1)⟩

theorem Rel.nonneg {e a' a : ℝ} (h : Rel e a' a) (he : e ≤ 1) : 0 ≤ a' := by
  have := (abs_le.1 h.2).1
  have := mul_le_mul_of_nonneg_right he h.1
  linarith

theorem Rel.le {e a' a : ℝ} (h : Rel e a' a) : a' ≤ (1 + e) * a := by
  have := (abs_le.1 h.2).2
  linarith

theorem Rel.mul {e f g a' a b' b : ℝ} (h : Rel e a' a) (k : Rel f b' b) (he : 0 ≤ e) (hf : 0 ≤ f) (hg : e + f + e * f ≤ g) :
    Rel g (a' * b') (a * b) := by
  obtain ⟨h0, h1⟩ := h
  obtain ⟨k0, k1⟩ := k
  refine ⟨mul_nonneg h0 k0, ?_⟩
  have e1 : a' * b' - a * b = (a' - a) * (b' - b) + (a' - a) * b + a * (b' - b) := by ring
  rw [e1]
  have t1 : |(a' - a) * (b' - b)| ≤ e * a * (f * b) := by
    rw [abs_mul]; exact mul_le_mul h1 k1 (abs_nonneg _) (mul_nonneg he h0)
  have t2 : |(a' - a) * b| ≤ e * a * b := by
    rw [abs_mul, abs_of_nonneg k0]; exact mul_le_mul_of_nonneg_right h1 k0
  have t3 : |a * (b' - b)| ≤ a * (f * b) := by
    rw [abs_mul, abs_of_nonneg h0]; exact mul_le_mul_of_nonneg_left k1 h0
  have t4 := mul_le_mul_of_nonneg_right hg (mul_nonneg h0 k0)
  calc _ ≤ |(a' - a) * (b' - b)| + |(a' - a) * b| + |a * (b' - b)| := abs_add_three _ _ _
    _ ≤ e * a * (f * b) + e * a * b + a * (f * b) := by linarith
    _ = (e + f + e * f) * (a * b) := by ring
    _ ≤ _ := t4

theorem Rel.add {e a' a b' b : ℝ} (h : Rel e a' a) (k : Rel e b' b) : Rel e (a' + b') (a + b) := by
  refine ⟨add_nonneg h.1 k.1, ?_⟩
  rw [show a' + b' - (a + b) = (a' - a) + (b' - b) by ring]
  have := abs_add_le (a' - a) (b' - b)
  have := h.2
  have := k.2
  linarith

/-- One error after another. -/
theorem Rel.step {e f g a'' a' a : ℝ} (h : Rel e a' a) (k : |a'' - a'| ≤ f * |a'|) (hf : 0 ≤ f) (hg : e + f + e * f ≤ g) : Rel g a'' a := by
  refine ⟨h.1, ?_⟩
  have h1 := h.2
  have h2 : |a'| ≤ (1 + e) * a := by
    have e1 : a' = (a' - a) + a := by ring
    calc |a'| = |(a' - a) + a| := by rw [← e1]
      _ ≤ |a' - a| + |a| := abs_add_le _ _
      _ ≤ _ := by rw [abs_of_nonneg h.1]; linarith
  have h3 := mul_le_mul_of_nonneg_left h2 hf
  have h4 := mul_le_mul_of_nonneg_right hg h.1
  rw [show a'' - a = (a'' - a') + (a' - a) by ring]
  have := abs_add_le (a'' - a') (a' - a)
  nlinarith

theorem flr (R : Rounding) (x : ℚ) : |((R.fl x : ℚ) : ℝ) - (x : ℝ)| ≤ 1 / 2 ^ 53 * |(x : ℝ)| := by
  have := (Rat.cast_le (K := ℝ)).2 (R.err x)
  push_cast at this ⊢
  exact this

theorem Rel.fl {R : Rounding} {e g a : ℝ} {x : ℚ} (h : Rel e (x : ℝ) a) (hg : e + 1 / 2 ^ 53 + e * (1 / 2 ^ 53) ≤ g) :
    Rel g ((R.fl x : ℚ) : ℝ) a := h.step (flr R x) (by norm_num) hg

theorem Rel.sqrt {e a' a : ℝ} (h : Rel e a' a) (he : e ≤ 1) : Rel e (Real.sqrt a') (Real.sqrt a) := by
  refine ⟨Real.sqrt_nonneg _, ?_⟩
  have h' := h.nonneg he
  rcases h.1.eq_or_lt with h0 | h0
  · have : a' = 0 := by
      have := h.2
      rw [← h0, mul_zero, sub_zero] at this
      exact abs_nonpos_iff.1 this
    rw [this, ← h0]; simp
  · have hs := Real.sqrt_pos.2 h0
    have e1 : (Real.sqrt a' - Real.sqrt a) * (Real.sqrt a' + Real.sqrt a) = a' - a := by
      have := Real.mul_self_sqrt h'
      have := Real.mul_self_sqrt h.1
      linarith
    have e2 : |Real.sqrt a' - Real.sqrt a| * (Real.sqrt a' + Real.sqrt a) = |a' - a| := by
      rw [← e1, abs_mul, abs_of_nonneg (add_nonneg (Real.sqrt_nonneg a') hs.le)]
    have e3 : |Real.sqrt a' - Real.sqrt a| * Real.sqrt a ≤ e * Real.sqrt a * Real.sqrt a := by
      have h1 : |Real.sqrt a' - Real.sqrt a| * Real.sqrt a ≤ |Real.sqrt a' - Real.sqrt a| * (Real.sqrt a' + Real.sqrt a) :=
        mul_le_mul_of_nonneg_left (by linarith [Real.sqrt_nonneg a']) (abs_nonneg _)
      have h2 : e * Real.sqrt a * Real.sqrt a = e * a := by rw [mul_assoc, Real.mul_self_sqrt h.1]
      rw [h2]
      linarith [h.2]
    exact le_of_mul_le_mul_right e3 hs

/-! ### Angles from cosines and sines -/

/-- How far apart two angles with nearly the same cosine can be. -/
theorem arccos_close {a b : ℝ} (ha : |a| ≤ 1) (hb : |b| ≤ 1) : 2 * |Real.arccos a - Real.arccos b| ^ 2 ≤ Real.pi ^ 2 * |a - b| := by
  wlog hab : Real.arccos b ≤ Real.arccos a generalizing a b
  · have := this hb ha (le_of_not_ge hab)
    rwa [abs_sub_comm, abs_sub_comm b a] at this
  rw [abs_le] at ha hb
  have ca := Real.cos_arccos ha.1 ha.2
  have cb := Real.cos_arccos hb.1 hb.2
  have a0 := Real.arccos_nonneg a
  have a1 := Real.arccos_le_pi a
  have b0 := Real.arccos_nonneg b
  have b1 := Real.arccos_le_pi b
  generalize Real.arccos a = A at *
  generalize Real.arccos b = B at *
  have hpi := Real.pi_pos
  have h1 : b - a = 2 * Real.sin ((A + B) / 2) * Real.sin ((A - B) / 2) := by
    rw [← ca, ← cb, Real.cos_sub_cos, show (B - A) / 2 = -((A - B) / 2) by ring, Real.sin_neg, add_comm B A]; ring
  have hd : 0 ≤ (A - B) / 2 := by linarith
  have h2 : Real.sin ((A - B) / 2) ≤ Real.sin ((A + B) / 2) := by
    have h4 : Real.sin ((A + B) / 2) - Real.sin ((A - B) / 2) = 2 * Real.sin (B / 2) * Real.cos (A / 2) := by
      rw [Real.sin_sub_sin]
      congr 2
      · ring_nf
      · ring_nf
    have h5 : 0 ≤ Real.sin (B / 2) := Real.sin_nonneg_of_nonneg_of_le_pi (by linarith) (by linarith)
    have h6 : 0 ≤ Real.cos (A / 2) := Real.cos_nonneg_of_neg_pi_div_two_le_of_le (by linarith) (by linarith)
    have := mul_nonneg (mul_nonneg zero_le_two h5) h6
    linarith
  have h3 := Real.mul_le_sin hd (by linarith : (A - B) / 2 ≤ Real.pi / 2)
  have h4 : 0 ≤ 2 / Real.pi * ((A - B) / 2) := by positivity
  have h5 : 2 / Real.pi * ((A - B) / 2) = (A - B) / Real.pi := by field_simp
  rw [h5] at h3 h4
  have h6 : 2 * ((A - B) / Real.pi) ^ 2 ≤ b - a := by
    rw [h1]
    nlinarith [mul_le_mul h3 h3 h4 (h4.trans h3)]
  rw [abs_of_nonneg (by linarith : 0 ≤ A - B)]
  have h7 : b - a ≤ |a - b| := by rw [abs_sub_comm]; exact le_abs_self _
  rw [div_pow, ← mul_div_assoc, div_le_iff₀ (by positivity)] at h6
  have := mul_le_mul_of_nonneg_left h7 (sq_nonneg Real.pi)
  linarith

/-- Small arcs from their sines. -/
theorem arcsin_close {s t : ℝ} (hs0 : 0 ≤ s) (hs : s ≤ 1 / 2) (ht0 : 0 ≤ t) (ht : t ≤ 1 / 2) :
    |Real.arcsin s - Real.arcsin t| ≤ 4 * |s - t| := by
  wlog h : Real.arcsin t ≤ Real.arcsin s generalizing s t
  · have := this ht0 ht hs0 hs (le_of_not_ge h)
    rwa [abs_sub_comm, abs_sub_comm t s] at this
  have hpi := Real.pi_pos
  have hpi4 := Real.pi_lt_four
  have es := Real.sin_arcsin (by linarith : -1 ≤ s) (by linarith)
  have et := Real.sin_arcsin (by linarith : -1 ≤ t) (by linarith)
  have h16 : Real.arcsin (1 / 2) = Real.pi / 6 := by
    rw [← Real.sin_pi_div_six]; exact Real.arcsin_sin (by linarith) (by linarith)
  have s1 : Real.arcsin s ≤ Real.pi / 6 := by rw [← h16]; exact Real.monotone_arcsin hs
  have t0 : 0 ≤ Real.arcsin t := Real.arcsin_nonneg.2 ht0
  generalize Real.arcsin s = A at *
  generalize Real.arcsin t = B at *
  have h1 : s - t = 2 * Real.sin ((A - B) / 2) * Real.cos ((A + B) / 2) := by rw [← es, ← et, Real.sin_sub_sin]
  have h2 : 1 / 2 ≤ Real.cos ((A + B) / 2) := by
    rw [← Real.cos_pi_div_three]
    exact Real.cos_le_cos_of_nonneg_of_le_pi (by linarith) (by linarith) (by linarith)
  have h3 := Real.mul_le_sin (by linarith : 0 ≤ (A - B) / 2) (by linarith)
  have h4 : (A - B) / 4 ≤ 2 / Real.pi * ((A - B) / 2) := by
    rw [show 2 / Real.pi * ((A - B) / 2) = (A - B) / Real.pi by field_simp]
    exact div_le_div_of_nonneg_left (by linarith) hpi hpi4.le
  have h5 : 0 ≤ Real.sin ((A - B) / 2) := by linarith
  rw [abs_of_nonneg (by linarith : 0 ≤ A - B)]
  have h6 : s - t ≤ |s - t| := le_abs_self _
  nlinarith

/-! ### The formula for positions close together -/

/-- The sine of half a small difference. -/
theorem half_sin_rel {R : Rounding} {T : Trig} (hT : T.Accurate) {d : ℚ} (hd : |d| ≤ 1 / 64) :
    Rel (6 / 2 ^ 53) ((T.sin (R.fl (|R.fl d| / 2)) : ℚ) : ℝ) (Real.sin (|(d : ℝ)| / 2)) := by
  have hd' : |(d : ℝ)| ≤ 1 / 64 := by
    have := (Rat.cast_le (K := ℝ)).2 hd
    push_cast at this ⊢
    exact this
  have h0 := abs_nonneg (d : ℝ)
  have r1 : Rel (1 / 2 ^ 53) ((|R.fl d| : ℚ) : ℝ) |(d : ℝ)| := by
    refine ⟨h0, ?_⟩
    push_cast
    exact (abs_abs_sub_abs_le _ _).trans (flr R d)
  have r2 : Rel (1 / 2 ^ 53) ((|R.fl d| / 2 : ℚ) : ℝ) (|(d : ℝ)| / 2) := by
    refine ⟨by linarith, ?_⟩
    have := r1.2
    push_cast at this ⊢
    rw [show |((R.fl d : ℚ) : ℝ)| / 2 - |(d : ℝ)| / 2 = (|((R.fl d : ℚ) : ℝ)| - |(d : ℝ)|) / 2 by ring, abs_div, abs_two]
    linarith
  have r3 : Rel (21 / 10 / 2 ^ 53) ((R.fl (|R.fl d| / 2) : ℚ) : ℝ) (|(d : ℝ)| / 2) := r2.fl (by norm_num)
  generalize R.fl (|R.fl d| / 2) = y' at *
  generalize hy : |(d : ℝ)| / 2 = y at *
  have hy0 : 0 ≤ y := by rw [← hy]; linarith
  have hy1 : y ≤ 1 / 128 := by rw [← hy]; linarith
  have hs : 99 / 100 * y ≤ Real.sin y := by
    rcases hy0.eq_or_lt with h | h
    · rw [← h]; simp
    · have := Real.sin_gt_sub_cube h
      nlinarith [mul_pos h h]
  have r4 : Rel (25 / 10 / 2 ^ 53) (Real.sin (y' : ℝ)) (Real.sin y) := by
    refine ⟨by linarith, ?_⟩
    have h1 := Real.abs_sin_sub_sin_le (y' : ℝ) y
    have h2 := r3.2
    have h3 : (21 : ℝ) / 10 / 2 ^ 53 * y ≤ 25 / 10 / 2 ^ 53 * (99 / 100 * y) := by
      norm_num
      linarith
    have h4 : (25 : ℝ) / 10 / 2 ^ 53 * (99 / 100 * y) ≤ 25 / 10 / 2 ^ 53 * Real.sin y := mul_le_mul_of_nonneg_left hs (by norm_num)
    linarith
  exact r4.step (hT.sin_err y') (by norm_num) (by norm_num)

theorem cos_rel {T : Trig} (hT : T.Accurate) {x : ℚ} (hx : |(x : ℝ)| ≤ Real.pi / 2) : Rel (2 / 2 ^ 53) ((T.cos x : ℚ) : ℝ) (Real.cos x) := by
  rw [abs_le] at hx
  have := Real.cos_nonneg_of_neg_pi_div_two_le_of_le hx.1 hx.2
  refine ⟨this, (hT.cos_err x).trans ?_⟩
  rw [abs_of_nonneg this]
  norm_num

/-- The branch for small differences. -/
def nearF (R : Rounding) (T : Trig) (lon1 lat1 lon2 lat2 radius : ℚ) : Except Err ℚ :=
  let sy := T.sin (R.fl (|R.fl (lat1 - lat2)| / 2))
  let sx := T.sin (R.fl (|R.fl (lon1 - lon2)| / 2))
  let h := R.fl (R.fl (sy * sy) + R.fl (R.fl (T.cos lat1 * T.cos lat2) * R.fl (sx * sx)))
  if h < 0 then .error .valueError
  else if |T.sqrt h| ≤ 1 then .ok (R.fl (radius * R.fl (2 * T.asin (T.sqrt h)))) else .error .valueError

theorem near_core {R : Rounding} {T : Trig} (hT : T.Accurate) {lon1 lat1 lon2 lat2 radius : ℚ} (hx : |lon1 - lon2| ≤ 1 / 64)
    (hy : |lat1 - lat2| ≤ 1 / 64) (h1 : |(lat1 : ℝ)| ≤ Real.pi / 2) (h2 : |(lat2 : ℝ)| ≤ Real.pi / 2) :
    ∃ d, nearF R T lon1 lat1 lon2 lat2 radius = .ok d ∧
      |(d : ℝ) - radius * centralAngle lon1 lat1 lon2 lat2| ≤ 1 / 2 ^ 46 * |(radius : ℝ) * centralAngle lon1 lat1 lon2 lat2| := by
  have ry := half_sin_rel (R := R) hT hy
  have rx := half_sin_rel (R := R) hT hx
  have c1 := cos_rel hT h1
  have c2 := cos_rel hT h2
  unfold nearF
  dsimp only
  generalize T.sin (R.fl (|R.fl (lat1 - lat2)| / 2)) = sy at *
  generalize T.sin (R.fl (|R.fl (lon1 - lon2)| / 2)) = sx at *
  have ryy : Rel (13.1 / 2 ^ 53) ((R.fl (sy * sy) : ℚ) : ℝ) (Real.sin (|((lat1 - lat2 : ℚ) : ℝ)| / 2) ^ 2) := by
    rw [sq]
    have : Rel (12.05 / 2 ^ 53) ((sy * sy : ℚ) : ℝ) (Real.sin (|((lat1 - lat2 : ℚ) : ℝ)| / 2) * Real.sin (|((lat1 - lat2 : ℚ) : ℝ)| / 2)) := by
      push_cast at ry ⊢
      exact ry.mul ry (by norm_num) (by norm_num) (by norm_num)
    exact this.fl (by norm_num)
  have rxx : Rel (13.1 / 2 ^ 53) ((R.fl (sx * sx) : ℚ) : ℝ) (Real.sin (|((lon1 - lon2 : ℚ) : ℝ)| / 2) ^ 2) := by
    rw [sq]
    have : Rel (12.05 / 2 ^ 53) ((sx * sx : ℚ) : ℝ) (Real.sin (|((lon1 - lon2 : ℚ) : ℝ)| / 2) * Real.sin (|((lon1 - lon2 : ℚ) : ℝ)| / 2)) := by
      push_cast at rx ⊢
      exact rx.mul rx (by norm_num) (by norm_num) (by norm_num)
    exact this.fl (by norm_num)
  have rcc : Rel (5.1 / 2 ^ 53) ((R.fl (T.cos lat1 * T.cos lat2) : ℚ) : ℝ) (Real.cos lat1 * Real.cos lat2) := by
    have : Rel (4.05 / 2 ^ 53) ((T.cos lat1 * T.cos lat2 : ℚ) : ℝ) (Real.cos lat1 * Real.cos lat2) := by
      push_cast
      exact c1.mul c2 (by norm_num) (by norm_num) (by norm_num)
    exact this.fl (by norm_num)
  generalize R.fl (sy * sy) = yy at *
  generalize R.fl (sx * sx) = xx at *
  generalize R.fl (T.cos lat1 * T.cos lat2) = cc at *
  have rm : Rel (19.5 / 2 ^ 53) ((R.fl (cc * xx) : ℚ) : ℝ) (Real.cos lat1 * Real.cos lat2 * Real.sin (|((lon1 - lon2 : ℚ) : ℝ)| / 2) ^ 2) := by
    have : Rel (18.3 / 2 ^ 53) ((cc * xx : ℚ) : ℝ) (Real.cos lat1 * Real.cos lat2 * Real.sin (|((lon1 - lon2 : ℚ) : ℝ)| / 2) ^ 2) := by
      push_cast
      exact_mod_cast rcc.mul rxx (by norm_num) (by norm_num) (by norm_num)
    exact this.fl (by norm_num)
  generalize R.fl (cc * xx) = m at *
  have rh : Rel (21 / 2 ^ 53) ((R.fl (yy + m) : ℚ) : ℝ) (Real.sin (|((lat1 - lat2 : ℚ) : ℝ)| / 2) ^ 2 +
      Real.cos lat1 * Real.cos lat2 * Real.sin (|((lon1 - lon2 : ℚ) : ℝ)| / 2) ^ 2) := by
    have : Rel (19.5 / 2 ^ 53) ((yy + m : ℚ) : ℝ) (Real.sin (|((lat1 - lat2 : ℚ) : ℝ)| / 2) ^ 2 +
        Real.cos lat1 * Real.cos lat2 * Real.sin (|((lon1 - lon2 : ℚ) : ℝ)| / 2) ^ 2) := by
      rw [Rat.cast_add]
      exact (ryy.mono (by norm_num)).add rm
    exact this.fl (by norm_num)
  generalize R.fl (yy + m) = h at *
  -- the true value
  have hx' : |((lon1 - lon2 : ℚ) : ℝ)| ≤ 1 / 64 := by
    have := (Rat.cast_le (K := ℝ)).2 hx
    push_cast at this ⊢
    exact this
  have hy' : |((lat1 - lat2 : ℚ) : ℝ)| ≤ 1 / 64 := by
    have := (Rat.cast_le (K := ℝ)).2 hy
    push_cast at this ⊢
    exact this
  have hsq : ∀ t : ℝ, 0 ≤ t → t ≤ 1 / 64 → Real.sin (t / 2) ^ 2 ≤ 1 / 64 := by
    intro t t0 t1
    have s1 := Real.sin_le (by linarith : 0 ≤ t / 2)
    have s2 := Real.sin_nonneg_of_nonneg_of_le_pi (by linarith : 0 ≤ t / 2) (by linarith [Real.pi_gt_three])
    nlinarith
  have hH : Real.sin (|((lat1 - lat2 : ℚ) : ℝ)| / 2) ^ 2 +
      Real.cos lat1 * Real.cos lat2 * Real.sin (|((lon1 - lon2 : ℚ) : ℝ)| / 2) ^ 2 ≤ 1 / 16 := by
    have s1 := hsq _ (abs_nonneg _) hy'
    have s2 := hsq _ (abs_nonneg _) hx'
    have s3 : Real.cos lat1 * Real.cos lat2 ≤ 1 := mul_le_one₀ (Real.cos_le_one _) c2.1 (Real.cos_le_one _)
    have s4 := mul_le_mul_of_nonneg_right s3 (sq_nonneg (Real.sin (|((lon1 - lon2 : ℚ) : ℝ)| / 2)))
    linarith
  have hang : 2 * Real.arcsin (Real.sqrt (Real.sin (|((lat1 - lat2 : ℚ) : ℝ)| / 2) ^ 2 +
      Real.cos lat1 * Real.cos lat2 * Real.sin (|((lon1 - lon2 : ℚ) : ℝ)| / 2) ^ 2)) = centralAngle lon1 lat1 lon2 lat2 := by
    rw [centralAngle_eq]
    push_cast
    rw [hav_arg]
    exact haversine (inner_bounds _ _ _ _).1 (inner_bounds _ _ _ _).2
  generalize Real.sin (|((lat1 - lat2 : ℚ) : ℝ)| / 2) ^ 2 +
      Real.cos lat1 * Real.cos lat2 * Real.sin (|((lon1 - lon2 : ℚ) : ℝ)| / 2) ^ 2 = H at *
  have h0 : (0 : ℝ) ≤ h := rh.nonneg (by norm_num)
  have h0' : 0 ≤ h := by exact_mod_cast h0
  rw [if_neg (not_lt.2 h0')]
  have rs : Rel (22.1 / 2 ^ 53) ((T.sqrt h : ℚ) : ℝ) (Real.sqrt H) := by
    refine (rh.sqrt (by norm_num)).step (f := 1 / 2 ^ 53) ?_ (by norm_num) (by norm_num)
    rw [abs_of_nonneg (Real.sqrt_nonneg _)]
    exact hT.sqrt_err h h0'
  have hS : Real.sqrt H ≤ 1 / 4 := by
    rw [show (1 : ℝ) / 4 = Real.sqrt (1 / 16) by rw [show (1 : ℝ) / 16 = (1 / 4) ^ 2 by norm_num, Real.sqrt_sq (by norm_num)]]
    exact Real.sqrt_le_sqrt hH
  generalize T.sqrt h = s at *
  have s0 : (0 : ℝ) ≤ s := rs.nonneg (by norm_num)
  have s1 : (s : ℝ) ≤ 1 / 2 := by
    have := rs.le
    norm_num at this hS ⊢
    linarith
  have s01 : |s| ≤ 1 := by
    rw [abs_le]
    constructor
    · have : (-1 : ℝ) ≤ s := by linarith
      exact_mod_cast this
    · have : (s : ℝ) ≤ 1 := by linarith
      exact_mod_cast this
  rw [if_pos s01]
  refine ⟨_, rfl, ?_⟩
  have ra : Rel (88.4 / 2 ^ 53) (Real.arcsin s) (Real.arcsin (Real.sqrt H)) := by
    have hn := Real.sqrt_nonneg H
    refine ⟨Real.arcsin_nonneg.2 hn, ?_⟩
    have t1 := arcsin_close s0 s1 hn (by linarith)
    have t2 := rs.2
    have t3 : Real.sqrt H ≤ Real.arcsin (Real.sqrt H) := by
      have := Real.sin_le (Real.arcsin_nonneg.2 hn)
      rwa [Real.sin_arcsin (by linarith) (by linarith)] at this
    have t4 : (22.1 : ℝ) / 2 ^ 53 * Real.sqrt H ≤ 22.1 / 2 ^ 53 * Real.arcsin (Real.sqrt H) := mul_le_mul_of_nonneg_left t3 (by norm_num)
    norm_num at t1 t2 t4 ⊢
    linarith
  have rb : Rel (91 / 2 ^ 53) ((2 * T.asin s : ℚ) : ℝ) (centralAngle lon1 lat1 lon2 lat2) := by
    have := ra.step (hT.asin_err s s01) (by norm_num) (g := 91 / 2 ^ 53) (by norm_num)
    rw [← hang]
    refine ⟨by linarith [this.1], ?_⟩
    have t := this.2
    push_cast
    rw [← mul_sub, abs_mul, abs_two]
    linarith
  have rc : Rel (93 / 2 ^ 53) ((R.fl (2 * T.asin s) : ℚ) : ℝ) (centralAngle lon1 lat1 lon2 lat2) := rb.fl (by norm_num)
  generalize R.fl (2 * T.asin s) = a at *
  have e1 := flr R (radius * a)
  have e2 : |((radius * a : ℚ) : ℝ) - radius * centralAngle lon1 lat1 lon2 lat2| ≤ 93 / 2 ^ 53 * |(radius : ℝ) * centralAngle lon1 lat1 lon2 lat2| := by
    push_cast
    rw [← mul_sub, abs_mul, abs_mul, abs_of_nonneg rc.1]
    have := mul_le_mul_of_nonneg_left rc.2 (abs_nonneg (radius : ℝ))
    linarith
  generalize (radius : ℝ) * centralAngle lon1 lat1 lon2 lat2 = D at *
  generalize ((radius * a : ℚ) : ℝ) = b at *
  have e3 : |b| ≤ |D| + 93 / 2 ^ 53 * |D| := by
    have := abs_sub_abs_le_abs_sub b D
    linarith
  have e4 := abs_sub_le (((R.fl (radius * a) : ℚ) : ℝ)) b D
  have hD := abs_nonneg D
  norm_num at e1 e2 e3 e4 ⊢
  linarith

/-! ### The formula for positions far apart -/

/-- The argument of `acos`. -/
def cosF (R : Rounding) (T : Trig) (lon1 lat1 lon2 lat2 : ℚ) : ℚ :=
  R.fl (R.fl (T.sin lat1 * T.sin lat2) + R.fl (R.fl (T.cos lat1 * T.cos lat2) * T.cos |R.fl (lon1 - lon2)|))

theorem prod_close {a b A B e f : ℝ} (ha : |a - A| ≤ e) (hb : |b - B| ≤ f) (hA : |A| ≤ 1) (hb1 : |b| ≤ 1) (he : 0 ≤ e) :
    |a * b - A * B| ≤ e + f := by
  rw [show a * b - A * B = (a - A) * b + A * (b - B) by ring]
  have t1 : |(a - A) * b| ≤ e * 1 := by rw [abs_mul]; exact mul_le_mul ha hb1 (abs_nonneg _) he
  have t2 : |A * (b - B)| ≤ 1 * f := by rw [abs_mul]; exact mul_le_mul hA hb (abs_nonneg _) zero_le_one
  have := abs_add_le ((a - A) * b) (A * (b - B))
  linarith

theorem fl_close {R : Rounding} {x : ℚ} {X e B : ℝ} (h : |(x : ℝ) - X| ≤ e) (hx : |(x : ℝ)| ≤ B) : |((R.fl x : ℚ) : ℝ) - X| ≤ e + B / 2 ^ 53 := by
  have h1 := flr R x
  have h2 := abs_sub_le ((R.fl x : ℚ) : ℝ) x X
  have h3 : 1 / 2 ^ 53 * |(x : ℝ)| ≤ B / 2 ^ 53 := by rw [div_eq_mul_one_div B, mul_comm B]; exact mul_le_mul_of_nonneg_left hx (by norm_num)
  linarith

theorem cosF_close {R : Rounding} {T : Trig} (hT : T.Accurate) {lon1 lat1 lon2 lat2 : ℚ} (hx : |lon1 - lon2| ≤ 8) :
    |((cosF R T lon1 lat1 lon2 lat2 : ℚ) : ℝ) - (Real.sin lat1 * Real.sin lat2 + Real.cos lat1 * Real.cos lat2 * Real.cos (lon1 - lon2))| ≤ 1 / 2 ^ 48 := by
  have hx' : |((lon1 - lon2 : ℚ) : ℝ)| ≤ 8 := by
    have := (Rat.cast_le (K := ℝ)).2 hx
    push_cast at this ⊢
    exact this
  have es : ∀ x : ℚ, |(T.sin x : ℝ) - Real.sin x| ≤ 2 / 2 ^ 53 := fun x => (hT.sin_err x).trans (by
    have := mul_le_mul_of_nonneg_left (Real.abs_sin_le_one (x : ℝ)) (by norm_num : (0 : ℝ) ≤ 1 / 2 ^ 52)
    norm_num at this ⊢
    linarith)
  have ec : ∀ x : ℚ, |(T.cos x : ℝ) - Real.cos x| ≤ 2 / 2 ^ 53 := fun x => (hT.cos_err x).trans (by
    have := mul_le_mul_of_nonneg_left (Real.abs_cos_le_one (x : ℝ)) (by norm_num : (0 : ℝ) ≤ 1 / 2 ^ 52)
    norm_num at this ⊢
    linarith)
  have ed : |((T.cos |R.fl (lon1 - lon2)| : ℚ) : ℝ) - Real.cos (lon1 - lon2)| ≤ 10 / 2 ^ 53 := by
    have h1 := ec |R.fl (lon1 - lon2)|
    have h2 := Real.abs_cos_sub_cos_le ((|R.fl (lon1 - lon2)| : ℚ) : ℝ) |((lon1 - lon2 : ℚ) : ℝ)|
    have h3 : |((|R.fl (lon1 - lon2)| : ℚ) : ℝ) - (|((lon1 - lon2 : ℚ) : ℝ)|)| ≤ 8 / 2 ^ 53 := by
      rw [Rat.cast_abs]
      refine (abs_abs_sub_abs_le _ _).trans ((flr R (lon1 - lon2)).trans ?_)
      have := mul_le_mul_of_nonneg_left hx' (by norm_num : (0 : ℝ) ≤ 1 / 2 ^ 53)
      linarith
    have h4 : Real.cos |((lon1 - lon2 : ℚ) : ℝ)| = Real.cos (lon1 - lon2) := by rw [Real.cos_abs]; push_cast; rfl
    rw [h4] at h2
    have h5 := abs_sub_le ((T.cos |R.fl (lon1 - lon2)| : ℚ) : ℝ) (Real.cos ((|R.fl (lon1 - lon2)| : ℚ) : ℝ)) (Real.cos (lon1 - lon2))
    norm_num at h1 h2 h3 h5 ⊢
    linarith
  have p1 : |((T.sin lat1 * T.sin lat2 : ℚ) : ℝ) - Real.sin lat1 * Real.sin lat2| ≤ 4 / 2 ^ 53 := by
    push_cast
    refine (prod_close (es lat1) (es lat2) (Real.abs_sin_le_one _) (hT.sin_le _) (by norm_num)).trans (by norm_num)
  have b1 : |((T.sin lat1 * T.sin lat2 : ℚ) : ℝ)| ≤ 1 := by
    push_cast; rw [abs_mul]; exact mul_le_one₀ (hT.sin_le _) (abs_nonneg _) (hT.sin_le _)
  have q1 := fl_close (R := R) p1 b1
  have p2 : |((T.cos lat1 * T.cos lat2 : ℚ) : ℝ) - Real.cos lat1 * Real.cos lat2| ≤ 4 / 2 ^ 53 := by
    push_cast
    refine (prod_close (ec lat1) (ec lat2) (Real.abs_cos_le_one _) (hT.cos_le _) (by norm_num)).trans (by norm_num)
  have b2 : |((T.cos lat1 * T.cos lat2 : ℚ) : ℝ)| ≤ 1 := by
    push_cast; rw [abs_mul]; exact mul_le_one₀ (hT.cos_le _) (abs_nonneg _) (hT.cos_le _)
  have q2 := fl_close (R := R) p2 b2
  have f2 := flr R (T.cos lat1 * T.cos lat2)
  have C2 : |Real.cos lat1 * Real.cos lat2| ≤ 1 := by
    rw [abs_mul]; exact mul_le_one₀ (Real.abs_cos_le_one _) (abs_nonneg _) (Real.abs_cos_le_one _)
  unfold cosF
  generalize T.sin lat1 * T.sin lat2 = s at *
  generalize T.cos lat1 * T.cos lat2 = c at *
  have f1 := flr R s
  have bs : |((R.fl s : ℚ) : ℝ)| ≤ 1.1 := by
    have := abs_sub_abs_le_abs_sub ((R.fl s : ℚ) : ℝ) s
    norm_num at this f1 b1 ⊢
    linarith
  have bc : |((R.fl c : ℚ) : ℝ)| ≤ 1.1 := by
    have := abs_sub_abs_le_abs_sub ((R.fl c : ℚ) : ℝ) c
    norm_num at this f2 b2 ⊢
    linarith
  generalize R.fl s = s' at *
  generalize R.fl c = c' at *
  have bd := hT.cos_le |R.fl (lon1 - lon2)|
  generalize T.cos |R.fl (lon1 - lon2)| = d at *
  have p3 : |((c' * d : ℚ) : ℝ) - Real.cos lat1 * Real.cos lat2 * Real.cos (lon1 - lon2)| ≤ 15 / 2 ^ 53 := by
    push_cast
    refine (prod_close q2 ed C2 bd (by norm_num)).trans (by norm_num)
  have b3 : |((c' * d : ℚ) : ℝ)| ≤ 1.1 := by
    push_cast; rw [abs_mul]
    have := mul_le_mul bc bd (abs_nonneg _) (by norm_num)
    linarith
  have q3 := fl_close (R := R) p3 b3
  have f3 := flr R (c' * d)
  generalize c' * d = m at *
  have bm : |((R.fl m : ℚ) : ℝ)| ≤ 1.2 := by
    have := abs_sub_abs_le_abs_sub ((R.fl m : ℚ) : ℝ) m
    norm_num at this f3 b3 ⊢
    linarith
  generalize R.fl m = m' at *
  have p4 : |((s' + m' : ℚ) : ℝ) - (Real.sin lat1 * Real.sin lat2 + Real.cos lat1 * Real.cos lat2 * Real.cos (lon1 - lon2))| ≤ 22 / 2 ^ 53 := by
    rw [Rat.cast_add, show (s' : ℝ) + m' - (Real.sin lat1 * Real.sin lat2 + Real.cos lat1 * Real.cos lat2 * Real.cos (lon1 - lon2)) =
      ((s' : ℝ) - Real.sin lat1 * Real.sin lat2) + (m' - Real.cos lat1 * Real.cos lat2 * Real.cos (lon1 - lon2)) by ring]
    refine (abs_add_le _ _).trans ?_
    norm_num at q1 q3 ⊢
    linarith
  have b4 : |((s' + m' : ℚ) : ℝ)| ≤ 2.3 := by
    rw [Rat.cast_add]
    refine (abs_add_le _ _).trans ?_
    linarith
  exact (fl_close (R := R) p4 b4).trans (by norm_num)

/-! ### C181 -/

/-- **C181.**  Whatever distance is returned is right to within `2^-22` of the radius (one and a half metres on the Earth). -/
theorem C181_error (R : Rounding) (T : Trig) (hT : T.Accurate) {lon1 lat1 lon2 lat2 radius d : ℚ} (hx : |lon1 - lon2| ≤ 8)
    (h1 : |(lat1 : ℝ)| ≤ Real.pi / 2) (h2 : |(lat2 : ℝ)| ≤ Real.pi / 2) (h : distF R T lon1 lat1 lon2 lat2 radius = .ok d) :
    |(d : ℝ) - radius * centralAngle lon1 lat1 lon2 lat2| ≤ 1 / 2 ^ 22 * |(radius : ℝ)| := by
  have hpi3 := Real.pi_gt_three
  have hpi4 := Real.pi_lt_d2
  have hang : |centralAngle lon1 lat1 lon2 lat2| ≤ 4 := by
    rw [centralAngle_eq, abs_of_nonneg (Real.arccos_nonneg _)]
    exact (Real.arccos_le_pi _).trans (by linarith)
  have hr := abs_nonneg (radius : ℝ)
  by_cases hb : R.fl (1 / 100) < |R.fl (lon1 - lon2)| ∨ R.fl (1 / 100) < |R.fl (lat1 - lat2)|
  · unfold distF at h
    dsimp only at h
    rw [if_pos hb] at h
    have hc := cosF_close (R := R) hT (lat1 := lat1) (lat2 := lat2) hx
    unfold cosF at hc
    generalize R.fl (R.fl (T.sin lat1 * T.sin lat2) + R.fl (R.fl (T.cos lat1 * T.cos lat2) * T.cos |R.fl (lon1 - lon2)|)) = c at h hc
    by_cases hc1 : |c| ≤ 1
    · rw [if_pos hc1] at h
      have hd : R.fl (radius * T.acos c) = d := by injection h
      have hc1' : |(c : ℝ)| ≤ 1 := by
        have := (Rat.cast_le (K := ℝ)).2 hc1
        push_cast at this
        exact this
      have ha := arccos_close hc1' (abs_le.2 (inner_bounds lon1 lat1 lon2 lat2))
      rw [← centralAngle_eq] at ha
      have hl := hT.acos_err c hc1
      have hl' : |Real.arccos (c : ℝ)| ≤ 4 := by
        rw [abs_of_nonneg (Real.arccos_nonneg _)]
        exact (Real.arccos_le_pi _).trans (by linarith)
      generalize centralAngle lon1 lat1 lon2 lat2 = A at *
      generalize Real.arccos (c : ℝ) = B at *
      have h3 : |B - A| ≤ 0.9 / 2 ^ 22 := by
        have t : |B - A| ^ 2 ≤ (0.9 / 2 ^ 22) ^ 2 := by
          have t1 : Real.pi ^ 2 ≤ 3.15 ^ 2 := pow_le_pow_left₀ (by linarith) hpi4.le 2
          have t2 := mul_le_mul t1 hc (abs_nonneg _) (by norm_num)
          norm_num at t2 ha ⊢
          linarith
        exact abs_le_of_sq_le_sq' t (by norm_num) |>.2 |> fun h => by simpa using h
      have h4 : |((T.acos c : ℚ) : ℝ) - A| ≤ 0.91 / 2 ^ 22 := by
        have := abs_sub_le ((T.acos c : ℚ) : ℝ) B A
        norm_num at this h3 hl hl' ⊢
        linarith
      have e1 := flr R (radius * T.acos c)
      rw [hd] at e1
      push_cast at e1
      have e2 : |(radius : ℝ) * T.acos c - radius * A| ≤ |(radius : ℝ)| * (0.91 / 2 ^ 22) := by
        rw [← mul_sub, abs_mul]; exact mul_le_mul_of_nonneg_left h4 hr
      have e3 : |(radius : ℝ) * T.acos c| ≤ |(radius : ℝ)| * 5 := by
        rw [abs_mul]
        refine mul_le_mul_of_nonneg_left ?_ hr
        have := abs_sub_abs_le_abs_sub ((T.acos c : ℚ) : ℝ) A
        norm_num at this h4 hang ⊢
        linarith
      have e4 := abs_sub_le (d : ℝ) (radius * T.acos c) (radius * A)
      norm_num at e1 e2 e3 e4 hr ⊢
      linarith [abs_nonneg (radius : ℝ)]
    · rw [if_neg hc1] at h; cases h
  · have hsmall : ∀ t : ℚ, |R.fl t| ≤ R.fl (1 / 100) → |t| ≤ 1 / 64 := by
      intro t ht
      have a1 := R.err t
      have a2 := (abs_le.1 (R.err (1 / 100))).2
      have a3 := abs_sub_abs_le_abs_sub t (R.fl t)
      rw [abs_sub_comm] at a3
      norm_num at a1 a2 a3 ⊢
      linarith
    rw [not_or, not_lt, not_lt] at hb
    obtain ⟨d', e, hd'⟩ := near_core (R := R) hT (radius := radius) (hsmall _ hb.1) (hsmall _ hb.2) h1 h2
    have : distF R T lon1 lat1 lon2 lat2 radius = nearF R T lon1 lat1 lon2 lat2 radius := by
      unfold distF nearF
      dsimp only
      rw [if_neg (by rw [not_or, not_lt, not_lt]; exact hb)]
    rw [this, e] at h
    injection h with h
    subst h
    refine hd'.trans ?_
    rw [abs_mul]
    have := mul_le_mul_of_nonneg_left hang hr
    norm_num
    linarith

/-- **C181.**  Positions whose longitudes and latitudes differ by at most 1/128: a distance is returned, right to a part of `2^-46` of
itself. -/
theorem C181_near (R : Rounding) (T : Trig) (hT : T.Accurate) {lon1 lat1 lon2 lat2 radius : ℚ} (hx : |lon1 - lon2| ≤ 1 / 128)
    (hy : |lat1 - lat2| ≤ 1 / 128) (h1 : |(lat1 : ℝ)| ≤ Real.pi / 2) (h2 : |(lat2 : ℝ)| ≤ Real.pi / 2) :
    ∃ d, distF R T lon1 lat1 lon2 lat2 radius = .ok d ∧
      |(d : ℝ) - radius * centralAngle lon1 lat1 lon2 lat2| ≤ 1 / 2 ^ 46 * |(radius : ℝ) * centralAngle lon1 lat1 lon2 lat2| := by
  have hsmall : ∀ t : ℚ, |t| ≤ 1 / 128 → |R.fl t| ≤ R.fl (1 / 100) := by
    intro t ht
    have a1 := R.err t
    have a2 := (abs_le.1 (R.err (1 / 100))).1
    have a3 := abs_sub_abs_le_abs_sub (R.fl t) t
    norm_num at a1 a2 a3 ht ⊢
    linarith
  have : distF R T lon1 lat1 lon2 lat2 radius = nearF R T lon1 lat1 lon2 lat2 radius := by
    unfold distF nearF
    dsimp only
    rw [if_neg (by rw [not_or, not_lt, not_lt]; exact ⟨hsmall _ hx, hsmall _ hy⟩)]
  rw [this]
  exact near_core hT (hx.trans (by norm_num)) (hy.trans (by norm_num)) h1 h2

/-- **C181 (part).**  A distance is returned for positions that are neither almost the same nor almost opposite.  Missing because false:
`C181_violated_raises`. -/
theorem C181_defined_partial (R : Rounding) (T : Trig) (hT : T.Accurate) {lon1 lat1 lon2 lat2 : ℚ} (radius : ℚ) (hx : |lon1 - lon2| ≤ 8)
    (h1 : |(lat1 : ℝ)| ≤ Real.pi / 2) (h2 : |(lat2 : ℝ)| ≤ Real.pi / 2) (ha : 1 / 2 ^ 22 ≤ centralAngle lon1 lat1 lon2 lat2)
    (hb : centralAngle lon1 lat1 lon2 lat2 ≤ Real.pi - 1 / 2 ^ 22) : ∃ d, distF R T lon1 lat1 lon2 lat2 radius = .ok d := by
  have hpi3 := Real.pi_gt_three
  have hpi4 := Real.pi_lt_d2
  by_cases hbr : R.fl (1 / 100) < |R.fl (lon1 - lon2)| ∨ R.fl (1 / 100) < |R.fl (lat1 - lat2)|
  · unfold distF
    dsimp only
    rw [if_pos hbr]
    have hc := cosF_close (R := R) hT (lat1 := lat1) (lat2 := lat2) hx
    unfold cosF at hc
    generalize R.fl (R.fl (T.sin lat1 * T.sin lat2) + R.fl (R.fl (T.cos lat1 * T.cos lat2) * T.cos |R.fl (lon1 - lon2)|)) = c at hc
    have hin := inner_bounds lon1 lat1 lon2 lat2
    rw [centralAngle_eq] at ha hb
    generalize Real.sin lat1 * Real.sin lat2 + Real.cos lat1 * Real.cos lat2 * Real.cos (lon1 - lon2) = C at *
    have u1 := arccos_close (abs_le.2 hin) (by norm_num : |(1 : ℝ)| ≤ 1)
    have u2 := arccos_close (abs_le.2 hin) (by norm_num : |(-1 : ℝ)| ≤ 1)
    rw [Real.arccos_one, sub_zero, abs_sub_comm C 1, abs_of_nonneg (by linarith : 0 ≤ 1 - C), sq_abs] at u1
    rw [Real.arccos_neg_one, sub_neg_eq_add, abs_of_nonneg (by linarith : 0 ≤ C + 1), sq_abs] at u2
    have t1 : Real.pi ^ 2 ≤ 10 := by nlinarith
    have v1 : (1 / 2 ^ 22) ^ 2 ≤ Real.arccos C ^ 2 := pow_le_pow_left₀ (by norm_num) ha 2
    have v2 : (1 / 2 ^ 22) ^ 2 ≤ (Real.arccos C - Real.pi) ^ 2 := by
      rw [← neg_sub, neg_sq]; exact pow_le_pow_left₀ (by norm_num) (by linarith) 2
    have w1 := mul_le_mul_of_nonneg_right t1 (by linarith : 0 ≤ 1 - C)
    have w2 := mul_le_mul_of_nonneg_right t1 (by linarith : 0 ≤ C + 1)
    have hc1 : |(c : ℝ)| ≤ 1 := by
      rw [abs_le] at hc ⊢
      norm_num at *
      constructor <;> linarith
    have hc1' : |c| ≤ 1 := by exact_mod_cast hc1
    rw [if_pos hc1']
    exact ⟨_, rfl⟩
  · have hsmall : ∀ t : ℚ, |R.fl t| ≤ R.fl (1 / 100) → |t| ≤ 1 / 64 := by
      intro t ht
      have a1 := R.err t
      have a2 := (abs_le.1 (R.err (1 / 100))).2
      have a3 := abs_sub_abs_le_abs_sub t (R.fl t)
      rw [abs_sub_comm] at a3
      norm_num at a1 a2 a3 ⊢
      linarith
    rw [not_or, not_lt, not_lt] at hbr
    obtain ⟨d', e, _⟩ := near_core (R := R) hT (radius := radius) (hsmall _ hbr.1) (hsmall _ hbr.2) h1 h2
    refine ⟨d', ?_⟩
    rw [← e]
    unfold distF nearF
    dsimp only
    rw [if_neg (by rw [not_or, not_lt, not_lt]; exact hbr)]

/-! ### The conditions can be met -/

/-- Cosines from 1/2 on are rounded to the nearest double. -/
def Trig.NearestCos (T : Trig) : Prop :=
  ∀ x : ℚ, 1 / 2 ≤ Real.cos x → (∃ n : ℤ, T.cos x = n / 2 ^ 53) ∧ |(T.cos x : ℝ) - Real.cos x| ≤ 1 / 2 ^ 54

theorem exists_below {r : ℝ} (hr : 0 < r) : ∃ q : ℚ, r - 1 / 2 ^ 53 * r < q ∧ (q : ℝ) < r :=
  exists_rat_btwn (by
    have : 0 < 1 / 2 ^ 53 * r := by positivity
    linarith)

open Classical in
/-- A rational number next to `r`, but not larger in size. -/
noncomputable def near (r : ℝ) : ℚ :=
  if h : 0 < r then (exists_below h).choose else if h : 0 < -r then -(exists_below h).choose else 0

theorem near_spec (r : ℝ) : |(near r : ℝ) - r| ≤ 1 / 2 ^ 53 * |r| ∧ |(near r : ℝ)| ≤ |r| := by
  unfold near
  by_cases h : 0 < r
  · rw [dif_pos h, abs_of_pos h]
    obtain ⟨h1, h2⟩ := (exists_below h).choose_spec
    have : 1 / 2 ^ 53 * r ≤ r := by norm_num; linarith
    refine ⟨by rw [abs_le]; constructor <;> linarith, by rw [abs_le]; constructor <;> linarith⟩
  · rw [dif_neg h]
    by_cases h' : 0 < -r
    · rw [dif_pos h', abs_of_neg (a := r) (by linarith)]
      obtain ⟨h1, h2⟩ := (exists_below h').choose_spec
      have : 1 / 2 ^ 53 * (-r) ≤ -r := by norm_num; linarith
      push_cast
      refine ⟨by rw [abs_le]; constructor <;> linarith, by rw [abs_le]; constructor <;> linarith⟩
    · rw [dif_neg h']
      have : r = 0 := by linarith
      rw [this]; simp

open Classical in
/-- A library that meets all the conditions. -/
noncomputable def someTrig : Trig where
  sin x := near (Real.sin x)
  cos x := if 1 / 2 ≤ Real.cos x then (round (Real.cos x * 2 ^ 53) : ℚ) / 2 ^ 53 else near (Real.cos x)
  asin x := near (Real.arcsin x)
  acos x := near (Real.arccos x)
  sqrt x := near (Real.sqrt x)

theorem someTrig_cos {x : ℚ} (h : 1 / 2 ≤ Real.cos x) :
    someTrig.cos x = (round (Real.cos x * 2 ^ 53) : ℚ) / 2 ^ 53 ∧ |(someTrig.cos x : ℝ) - Real.cos x| ≤ 1 / 2 ^ 54 := by
  have e : someTrig.cos x = (round (Real.cos x * 2 ^ 53) : ℚ) / 2 ^ 53 := by unfold someTrig; dsimp only; rw [if_pos h]
  refine ⟨e, ?_⟩
  rw [e]
  push_cast
  have h1 := abs_sub_round (Real.cos x * 2 ^ 53)
  rw [abs_le] at h1 ⊢
  norm_num at h1 ⊢
  constructor <;> linarith

theorem someTrig_nearest : someTrig.NearestCos := fun _ h => ⟨⟨_, (someTrig_cos h).1⟩, (someTrig_cos h).2⟩

theorem someTrig_accurate : someTrig.Accurate := by
  have a : ∀ r : ℝ, |(near r : ℝ) - r| ≤ 1 / 2 ^ 52 * |r| := fun r => (near_spec r).1.trans (mul_le_mul_of_nonneg_right (by norm_num) (abs_nonneg r))
  refine ⟨fun x => a _, fun x => ?_, fun x => (near_spec _).2.trans (Real.abs_sin_le_one _), fun x => ?_, fun x _ => a _, fun x _ => a _, fun x _ => ?_⟩
  · by_cases h : 1 / 2 ≤ Real.cos x
    · refine (someTrig_cos h).2.trans ?_
      rw [abs_of_nonneg (by linarith)]
      norm_num
      linarith
    · have e : someTrig.cos x = near (Real.cos x) := by unfold someTrig; dsimp only; rw [if_neg h]
      rw [e]; exact a _
  · by_cases h : 1 / 2 ≤ Real.cos x
    · have h1 := Real.cos_le_one x
      have h2 : round (Real.cos x * 2 ^ 53) ≤ 2 ^ 53 := by
        by_contra hc
        have h3 : (2 ^ 53 + 1 : ℤ) ≤ round (Real.cos x * 2 ^ 53) := by omega
        have h4 : ((2 ^ 53 + 1 : ℤ) : ℝ) ≤ round (Real.cos x * 2 ^ 53) := by exact_mod_cast h3
        have h5 := (abs_le.1 (abs_sub_round (Real.cos x * 2 ^ 53))).1
        norm_num at h4 h5
        linarith
      have h3 : ((round (Real.cos x * 2 ^ 53) : ℤ) : ℝ) ≤ 2 ^ 53 := by exact_mod_cast h2
      have h4 := (abs_le.1 (someTrig_cos h).2).1
      have h5 : ((someTrig.cos x : ℚ) : ℝ) ≤ 1 := by
        rw [(someTrig_cos h).1]
        push_cast
        rw [div_le_one (by norm_num)]
        exact h3
      rw [abs_le]
      norm_num at h4 ⊢
      exact ⟨by linarith, by exact_mod_cast h5⟩
    · have e : someTrig.cos x = near (Real.cos x) := by unfold someTrig; dsimp only; rw [if_neg h]
      rw [e]; exact (near_spec _).2.trans (Real.abs_cos_le_one _)
  · have := (near_spec (Real.sqrt x)).1
    rwa [abs_of_nonneg (Real.sqrt_nonneg _)] at this

/-- Two positions a quarter of a radian apart along the equator, and two close together. -/
example : (∃ d, distF double someTrig 0 0 (1 / 4) 0 6371000 = .ok d) ∧
    ∃ d, distF double someTrig (1 / 2) (1 / 4) (1 / 2 + 1 / 1024) (1 / 4) 6371000 = .ok d := by
  have hpi := Real.pi_gt_three
  constructor
  · have e : centralAngle ((0 : ℚ) : ℝ) ((0 : ℚ) : ℝ) ((1 / 4 : ℚ) : ℝ) ((0 : ℚ) : ℝ) = 1 / 4 := by
      rw [centralAngle_eq]
      simp only [Rat.cast_zero, Real.sin_zero, Real.cos_zero, mul_zero, zero_add, one_mul, zero_sub, Real.cos_neg]
      rw [Real.arccos_cos (by norm_num) (by push_cast; linarith)]
      norm_num
    apply C181_defined_partial double someTrig someTrig_accurate
    · norm_num
    · simp; linarith
    · simp; linarith
    · rw [e]; norm_num
    · rw [e]; norm_num; linarith
  · obtain ⟨d, h, _⟩ := C181_near double someTrig someTrig_accurate (lon1 := 1 / 2) (lat1 := 1 / 4) (lon2 := 1 / 2 + 1 / 1024) (lat2 := 1 / 4)
      (radius := 6371000) (by norm_num) (by norm_num) (by norm_num [abs_of_pos]; linarith) (by norm_num [abs_of_pos]; linarith)
    exact ⟨d, h⟩

/-! ### Where the formula fails -/

theorem taylor {x : ℝ} (hx : |x| ≤ 1) : |Real.cos x - (1 - x ^ 2 / 2 + x ^ 4 / 24)| ≤ |x| ^ 6 * (7 / 4320) ∧
    |Real.sin x - (x - x ^ 3 / 6 + x ^ 5 / 120)| ≤ |x| ^ 6 * (7 / 4320) := by
  have h := Complex.exp_bound (x := (x : ℂ) * Complex.I) (by simpa using hx) (n := 6) (by norm_num)
  have hn : ‖(x : ℂ) * Complex.I‖ = |x| := by simp
  have e : Complex.exp ((x : ℂ) * Complex.I) - ∑ m ∈ Finset.range 6, ((x : ℂ) * Complex.I) ^ m / (m.factorial : ℂ) =
      ⟨Real.cos x - (1 - x ^ 2 / 2 + x ^ 4 / 24), Real.sin x - (x - x ^ 3 / 6 + x ^ 5 / 120)⟩ := by
    have h2 : Complex.I ^ 2 = -1 := Complex.I_sq
    have h3 : Complex.I ^ 3 = -Complex.I := Complex.I_pow_three
    have h4 : Complex.I ^ 4 = 1 := Complex.I_pow_four
    have h5 : Complex.I ^ 5 = Complex.I := by rw [pow_succ, h4, one_mul]
    rw [Complex.exp_mul_I, ← Complex.ofReal_cos, ← Complex.ofReal_sin, Complex.mk_eq_add_mul_I]
    simp only [Finset.sum_range_succ, Finset.sum_range_zero, Nat.factorial, mul_pow, h2, h3, h4, h5]
    push_cast
    ring
  rw [e, hn] at h
  have hr : (|x| ^ 6 * (((6 : ℕ).succ : ℝ) * (((6 : ℕ).factorial : ℝ) * ((6 : ℕ) : ℝ))⁻¹)) = |x| ^ 6 * (7 / 4320) := by
    norm_num [Nat.factorial]
  rw [hr] at h
  exact ⟨(Complex.abs_re_le_norm _).trans h, (Complex.abs_im_le_norm _).trans h⟩

/-- `math.pi` -/
def piF : ℚ := 884279719003555 / 281474976710656

theorem cos_turn : 1 - 1 / 2 ^ 80 ≤ Real.cos ((2 * piF : ℚ) : ℝ) := by
  have h1 := Real.pi_gt_d20
  have h2 := Real.pi_lt_d20
  have h3 := Real.one_sub_sq_div_two_le_cos (x := ((2 * piF : ℚ) : ℝ) - 2 * Real.pi)
  rw [Real.cos_sub_two_pi] at h3
  have h4 : |((2 * piF : ℚ) : ℝ) - 2 * Real.pi| ≤ 1 / 2 ^ 45 := by
    unfold piF
    rw [abs_le]
    norm_num at h1 h2 ⊢
    constructor <;> linarith
  have h5 : (((2 * piF : ℚ) : ℝ) - 2 * Real.pi) ^ 2 ≤ (1 / 2 ^ 45) ^ 2 := sq_le_sq' (abs_le.1 h4).1 (abs_le.1 h4).2
  norm_num at h3 h5 ⊢
  linarith

theorem nearest_cos {T : Trig} (h : T.NearestCos) {x : ℚ} {n : ℤ} (h1 : 1 / 2 ≤ Real.cos x)
    (h2 : |(n : ℝ) / 2 ^ 53 - Real.cos x| < 1 / 2 ^ 54) : T.cos x = n / 2 ^ 53 := by
  obtain ⟨⟨m, hm⟩, h3⟩ := h x h1
  have h4 : |((m : ℝ) - n)| < 1 := by
    rw [hm] at h3
    push_cast at h3
    rw [abs_le] at h3
    rw [abs_lt] at h2 ⊢
    constructor
    · have : (n : ℝ) / 2 ^ 53 - m / 2 ^ 53 < 1 / 2 ^ 53 := by norm_num at *; linarith
      rw [← sub_div, div_lt_div_iff_of_pos_right (by norm_num)] at this
      linarith
    · have : (m : ℝ) / 2 ^ 53 - n / 2 ^ 53 < 1 / 2 ^ 53 := by norm_num at *; linarith
      rw [← sub_div, div_lt_div_iff_of_pos_right (by norm_num)] at this
      linarith
  have h5 : |m - n| < 1 := by exact_mod_cast h4
  have := Int.abs_lt_one_iff.1 h5
  rw [hm, show m = n by omega]
/-- **C181 is violated.**  The two positions at longitude -180 and 180 degrees and the latitude 81/32768 (some 0.14 degrees) are the same, but
`sphere_distance` raises ValueError instead of returning zero, with any accurate library whose cosines are rounded to the nearest. -/
theorem C181_violated_raises (T : Trig) (hT : T.Accurate) (hN : T.NearestCos) (radius : ℚ) :
    distF double T (-piF) (81 / 32768) piF (81 / 32768) radius = .error .valueError := by
  obtain ⟨t1, t2⟩ := taylor (x := ((81 / 32768 : ℚ) : ℝ)) (by norm_num [abs_of_pos])
  rw [abs_of_pos (a := ((81 / 32768 : ℚ) : ℝ)) (by norm_num)] at t1 t2
  have hd : |double.fl (-piF - piF)| = 2 * piF := by decide +kernel
  have c1 : T.cos (81 / 32768) = 9007171735926461 / 2 ^ 53 := by
    have := nearest_cos hN (x := 81 / 32768) (n := 9007171735926461) (by
      rw [abs_le] at t1
      norm_num at t1 ⊢
      linarith) (by
      rw [abs_le] at t1
      rw [abs_lt]
      norm_num at t1 ⊢
      constructor <;> linarith)
    rw [this]; norm_num
  have c2 : T.cos (2 * piF) = 1 := by
    have h := cos_turn
    have h' := Real.cos_le_one ((2 * piF : ℚ) : ℝ)
    have := nearest_cos hN (x := 2 * piF) (n := 2 ^ 53) (by norm_num at h ⊢; linarith) (by
      rw [abs_lt]
      norm_num at h h' ⊢
      constructor <;> linarith)
    rw [this]; norm_num
  have hs : (2471921310715485 / 10 ^ 18 : ℚ) ≤ T.sin (81 / 32768) := by
    have h := (abs_le.1 (hT.sin_err (81 / 32768))).1
    have hpos : 0 < Real.sin ((81 / 32768 : ℚ) : ℝ) := by
      rw [abs_le] at t2
      norm_num at t2 ⊢
      linarith
    rw [abs_of_pos hpos] at h
    have : ((2471921310715485 / 10 ^ 18 : ℚ) : ℝ) ≤ T.sin (81 / 32768) := by
      rw [abs_le] at t2
      norm_num at t2 h ⊢
      linarith
    exact_mod_cast this
  have hss : (2471921310715485 / 10 ^ 18 : ℚ) * (2471921310715485 / 10 ^ 18) ≤ T.sin (81 / 32768) * T.sin (81 / 32768) :=
    mul_le_mul hs hs (by norm_num) (le_trans (by norm_num) hs)
  have hc : 1 < double.fl (double.fl (T.sin (81 / 32768) * T.sin (81 / 32768)) +
      double.fl (double.fl (9007171735926461 / 2 ^ 53 * (9007171735926461 / 2 ^ 53)) * 1)) := by
    refine lt_of_lt_of_le ?_ (double.mono (add_le_add_left (double.mono hss) _))
    decide +kernel
  unfold distF
  dsimp only
  rw [if_pos (Or.inl (by rw [hd]; decide +kernel)), hd, c1, c2, if_neg]
  rw [not_le, abs_of_pos (by linarith)]
  exact hc

example : distF double someTrig (-piF) (81 / 32768) piF (81 / 32768) 6371000 = .error .valueError :=
  C181_violated_raises someTrig someTrig_accurate someTrig_nearest _

end Karta.Float.SphereF
