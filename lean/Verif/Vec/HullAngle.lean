import Verif.Vec.HullProps
import Mathlib.Analysis.SpecialFunctions.Complex.Arg
import Mathlib.Analysis.SpecialFunctions.Trigonometric.Arctan

/-!
The direction key of the convex hull model orders vertices exactly like the azimuth of the code.
-/

namespace Karta.Vec.Hull
open Karta Karta.Vec

/-- `M_PI_2 - azimuth(leftmost, p)` with `azimuth = atan2(dx, dy)` (convexhull.pyx 46, vectorgeo.pyx 165-167) in
real arithmetic; `atan2(v, u)` is the argument of `u + iv`, and zero at the origin. -/
noncomputable def azimuthReal (L p : Pt) : ℝ :=
  Real.pi / 2 - Complex.arg ⟨((p.y - L.y : ℚ) : ℝ), ((p.x - L.x : ℚ) : ℝ)⟩

/-- The real azimuth that belongs to a key. -/
noncomputable def keyAngle (k : Nat × ℚ) : ℝ :=
  if k.1 = 0 then -(Real.pi / 2) else if k.1 = 1 then Real.arctan (k.2 : ℝ) else Real.pi / 2

theorem azimuth_keyAngle {L p : Pt} (h : Beyond L p) : azimuthReal L p = keyAngle (dirKey L p) := by
  unfold azimuthReal dirKey
  rcases h with h | ⟨h, h'⟩
  · rw [if_neg h.ne']
    have e : keyAngle (1, (p.y - L.y) / (p.x - L.x)) = Real.arctan (((p.y - L.y) / (p.x - L.x) : ℚ) : ℝ) := by
      simp [keyAngle]
    rw [e]
    have him : (0 : ℝ) < ((p.x - L.x : ℚ) : ℝ) := by exact_mod_cast sub_pos.mpr h
    generalize ((p.x - L.x : ℚ)) = dx at *
    generalize ((p.y - L.y : ℚ)) = dy at *
    have ht : Real.tan (Real.pi / 2 - Complex.arg ⟨(dy : ℝ), (dx : ℝ)⟩) = (dy : ℝ) / dx := by
      rw [Real.tan_pi_div_two_sub, Complex.tan_arg]
      simp
    have h1 : 0 < Complex.arg ⟨(dy : ℝ), (dx : ℝ)⟩ := by
      rcases lt_or_eq_of_le (Complex.arg_nonneg_iff.mpr him.le : 0 ≤ Complex.arg ⟨(dy : ℝ), (dx : ℝ)⟩) with h | h
      · exact h
      · have := (Complex.arg_eq_zero_iff.mp h.symm).2
        exact absurd this him.ne'
    have h2 : Complex.arg ⟨(dy : ℝ), (dx : ℝ)⟩ < Real.pi := by
      apply Complex.arg_lt_pi_iff.mpr
      exact Or.inr him.ne'
    rw [← Real.arctan_tan (x := Real.pi / 2 - Complex.arg ⟨(dy : ℝ), (dx : ℝ)⟩) (by linarith) (by linarith), ht]
    push_cast
    rfl
  · rw [if_pos h, h, sub_self]
    rcases h'.lt_or_eq with h' | h'
    · rw [if_neg h'.ne]
      have hneg : ((p.y - L.y : ℚ) : ℝ) < 0 := by exact_mod_cast sub_neg.mpr h'
      have : Complex.arg ⟨((p.y - L.y : ℚ) : ℝ), ((0 : ℚ) : ℝ)⟩ = Real.pi := by
        rw [Complex.arg_eq_pi_iff]
        exact ⟨hneg, by simp⟩
      rw [this]
      simp only [keyAngle, if_true]
      ring
    · rw [if_pos h', h', sub_self]
      have : (⟨((0 : ℚ) : ℝ), ((0 : ℚ) : ℝ)⟩ : ℂ) = 0 := by apply Complex.ext <;> simp
      rw [this, Complex.arg_zero]
      simp [keyAngle]

/-- The keys of vertices seen from the leftmost one are ordered like the azimuths, and equal exactly when they are. -/
theorem dirKey_order {L p q : Pt} (hp : Beyond L p) (hq : Beyond L q) :
    (keyLe (dirKey L p) (dirKey L q) ↔ azimuthReal L p ≤ azimuthReal L q) ∧
    (dirKey L p = dirKey L q ↔ azimuthReal L p = azimuthReal L q) := by
  have wf : ∀ r, Beyond L r → dirKey L r = (0, 0) ∨ (∃ s, dirKey L r = (1, s)) ∨ dirKey L r = (2, 0) := by
    intro r _
    unfold dirKey
    by_cases h1 : r.x = L.x
    · rw [if_pos h1]
      by_cases h2 : r.y = L.y
      · rw [if_pos h2]; exact Or.inr (Or.inr rfl)
      · rw [if_neg h2]; exact Or.inl rfl
    · rw [if_neg h1]; exact Or.inr (Or.inl ⟨_, rfl⟩)
  have mono : ∀ r s, Beyond L r → Beyond L s → (keyLe (dirKey L r) (dirKey L s) ↔ azimuthReal L r ≤ azimuthReal L s) := by
    intro r s hr hs
    rw [azimuth_keyAngle hr, azimuth_keyAngle hs]
    have hpi := Real.pi_pos
    rcases wf r hr with h1 | ⟨a, h1⟩ | h1 <;> rcases wf s hs with h2 | ⟨b, h2⟩ | h2 <;> rw [h1, h2] <;>
      simp only [keyLe, keyAngle]
    · simp
    · have := Real.neg_pi_div_two_lt_arctan (b : ℝ)
      simp; linarith
    · simp; linarith
    · have := Real.neg_pi_div_two_lt_arctan (a : ℝ)
      simp; linarith
    · simp [Real.arctan_le_arctan_iff]
    · have := Real.arctan_lt_pi_div_two (a : ℝ)
      simp; linarith
    · simp; linarith
    · have := Real.arctan_lt_pi_div_two (b : ℝ)
      simp; linarith
    · simp
  refine ⟨mono p q hp hq, ?_⟩
  constructor
  · intro h
    rw [azimuth_keyAngle hp, azimuth_keyAngle hq, h]
  · intro h
    have h1 := (mono p q hp hq).mpr h.le
    have h2 := (mono q p hq hp).mpr h.ge
    unfold keyLe at h1 h2
    have h3 : (dirKey L p).1 = (dirKey L q).1 := by omega
    have h4 : (dirKey L p).2 = (dirKey L q).2 := by
      apply le_antisymm
      · rcases h1 with h | ⟨_, h⟩
        · omega
        · exact h
      · rcases h2 with h | ⟨_, h⟩
        · omega
        · exact h
    exact Prod.ext h3 h4

example : Beyond ⟨0, 0⟩ ⟨1, -3⟩ ∧ Beyond ⟨0, 0⟩ ⟨0, -2⟩ := by
  unfold Beyond; decide +kernel

end Karta.Vec.Hull
