import Verif.Geod.NearProj
import Mathlib.Tactic.Linarith
import Mathlib.Tactic.Positivity
import Mathlib.Tactic.FieldSimp
import Mathlib.Analysis.SpecialFunctions.Trigonometric.Inverse

/-!
Property C103: the nearest point of a geodesic is found to within the tolerance.
-/

namespace Karta.NearProj
open Karta

/-! ### Specification -/

/-- The distance `D` falls up to `m` and rises from there, between 0 and `B`. -/
def Valley (D : ℝ → ℝ) (m B : ℝ) : Prop :=
  0 ≤ m ∧ m ≤ B ∧ (∀ s t, 0 ≤ s → s < t → t ≤ m → D t < D s) ∧ ∀ s t, m ≤ s → s < t → t ≤ B → D s < D t

/-- `f` is the distance along the arc, of length `L`, at which `D` is least. -/
def Lowest (D : ℝ → ℝ) (L f : ℝ) : Prop := 0 ≤ f ∧ f ≤ L ∧ ∀ t, 0 ≤ t → t ≤ L → D f ≤ D t

/-! ### Helpers -/

theorem valley_lowest {D : ℝ → ℝ} {m B L : ℝ} (h : Valley D m B) (hL : 0 ≤ L) (hB : L ≤ B) : Lowest D L (min m L) := by
  obtain ⟨h0, h1, h2, h3⟩ := h
  refine ⟨le_min h0 hL, min_le_right _ _, fun t t0 t1 => ?_⟩
  rcases le_total m L with hm | hm
  · rw [min_eq_left hm]
    rcases lt_trichotomy t m with c | c | c
    · exact (h2 t m t0 c le_rfl).le
    · rw [c]
    · exact (h3 m t le_rfl c (t1.trans hB)).le
  · rw [min_eq_right hm]
    rcases t1.lt_or_eq with c | c
    · exact (h2 t L t0 c hm).le
    · rw [c]

/-- The numerical gradient is positive only if the valley is left of the far sample, otherwise it is right of the near one. -/
theorem gradient_sign {D : ℝ → ℝ} {m B dx f : ℝ} (h : Valley D m B) (hdx : 0 < dx) (hf : 0 ≤ f) (hB : f + dx ≤ B) :
    ((D (f + dx) - D f) / dx > 0 → m < f + dx) ∧ (¬ (D (f + dx) - D f) / dx > 0 → f ≤ m) ∧ ((D (f + dx) - D f) / dx < 0 → f ≤ m) := by
  obtain ⟨-, -, h2, h3⟩ := h
  have key : ¬ (D (f + dx) - D f) / dx > 0 → f ≤ m := by
    intro hn
    by_contra hc
    push Not at hc
    have := h3 f (f + dx) hc.le (by linarith) hB
    exact hn (div_pos (by linarith) hdx)
  refine ⟨fun hg => ?_, key, fun hg => key (by linarith)⟩
  by_contra hc
  push Not at hc
  have := h2 f (f + dx) hf (by linarith) hc
  have : (D (f + dx) - D f) / dx < 0 := div_neg_of_neg_of_pos (by linarith) hdx
  linarith

/-- What the bisection keeps: the valley is in the interval, the last step is as long as the interval, and the result is one of its ends. -/
theorem bisect_sound {D : ℝ → ℝ} {m L dx tol : ℝ} (hv : Valley D m (L + dx)) (hdx : 0 < dx) (hL : 0 < L) :
    ∀ (n : Nat) (x0 x1 xm w r : ℝ), 0 ≤ x0 → x0 ≤ x1 → x1 ≤ 1 → x0 * L ≤ m → m ≤ x1 * L + dx →
      (tol < w ∨ (xm = x0 ∨ xm = x1) ∧ (x1 - x0) * L = w) →
      bisect (fun f => (D (f + dx) - D f) / dx) L tol n x0 x1 xm w = .ok r →
      0 ≤ r ∧ r ≤ 1 ∧ |r * L - m| ≤ tol + dx := by
  intro n
  induction n with
  | zero =>
    intro x0 x1 xm w r h0 h01 h1 hl hr hw hb
    unfold bisect at hb
    by_cases hc : w > tol
    · rw [if_pos hc] at hb; simp at hb
    · rw [if_neg hc] at hb
      cases hb
      rcases hw with hw | ⟨he, hw⟩
      · exact absurd hw hc
      · push Not at hc
        have hw0 : 0 ≤ (x1 - x0) * L := mul_nonneg (by linarith) hL.le
        rw [sub_mul] at hw hw0
        rcases he with rfl | rfl
        · refine ⟨h0, h01.trans h1, abs_le.2 ⟨by linarith, by linarith⟩⟩
        · refine ⟨h0.trans h01, h1, abs_le.2 ⟨by linarith, by linarith⟩⟩
  | succ n ih =>
    intro x0 x1 xm w r h0 h01 h1 hl hr hw hb
    unfold bisect at hb
    by_cases hc : w > tol
    · rw [if_pos hc] at hb
      simp only at hb
      have hm0 : 0 ≤ 1 / 2 * (x0 + x1) * L := by have := h0.trans h01; positivity
      have hm1 : 1 / 2 * (x0 + x1) * L + dx ≤ L + dx := by nlinarith
      obtain ⟨g1, g2, -⟩ := gradient_sign hv hdx hm0 hm1
      by_cases hg : (D (1 / 2 * (x0 + x1) * L + dx) - D (1 / 2 * (x0 + x1) * L)) / dx > 0
      · rw [if_pos hg] at hb
        refine ih _ _ _ _ _ h0 (by linarith) (by linarith) hl (by linarith [g1 hg]) (Or.inr ⟨Or.inr rfl, ?_⟩) hb
        rw [abs_of_nonneg (by linarith)]
        ring
      · rw [if_neg hg] at hb
        refine ih _ _ _ _ _ (by linarith) (by linarith) h1 (g2 hg) hr (Or.inr ⟨Or.inl rfl, ?_⟩) hb
        rw [abs_of_nonpos (by linarith)]
        ring
    · rw [if_neg hc] at hb
      cases hb
      rcases hw with hw | ⟨he, hw⟩
      · exact absurd hw hc
      · push Not at hc
        have hw0 : 0 ≤ (x1 - x0) * L := mul_nonneg (by linarith) hL.le
        rw [sub_mul] at hw hw0
        rcases he with rfl | rfl
        · refine ⟨h0, h01.trans h1, abs_le.2 ⟨by linarith, by linarith⟩⟩
        · refine ⟨h0.trans h01, h1, abs_le.2 ⟨by linarith, by linarith⟩⟩

/-- The bisection with `n` rounds left ends if the interval gets short enough. -/
theorem bisect_ends (g : ℝ → ℝ) {L tol : ℝ} : ∀ (n : Nat) (x0 x1 xm w : ℝ), x0 ≤ x1 → (x1 - x0) * L ≤ tol * 2 ^ n → (n = 0 → w ≤ tol) →
    ∃ r, bisect g L tol n x0 x1 xm w = .ok r := by
  intro n
  induction n with
  | zero =>
    intro x0 x1 xm w _ _ h
    unfold bisect
    rw [if_neg (by have := h rfl; linarith)]
    exact ⟨_, rfl⟩
  | succ n ih =>
    intro x0 x1 xm w h01 hw _
    unfold bisect
    by_cases hc : w > tol
    · rw [if_pos hc]
      simp only
      rw [pow_succ] at hw
      have hhalf : (x1 - x0) / 2 * L ≤ tol * 2 ^ n := by linarith
      by_cases hg : g (1 / 2 * (x0 + x1) * L) > 0
      · rw [if_pos hg]
        refine ih _ _ _ _ (by linarith) (by linarith) fun hn => ?_
        subst hn
        rw [abs_of_nonneg (by linarith)]
        rw [pow_zero, mul_one] at hhalf
        linarith
      · rw [if_neg hg]
        refine ih _ _ _ _ (by linarith) (by linarith) fun hn => ?_
        subst hn
        rw [abs_of_nonpos (by linarith)]
        rw [pow_zero, mul_one] at hhalf
        linarith
    · rw [if_neg hc]
      exact ⟨_, rfl⟩

/-- And not otherwise. -/
theorem bisect_fails (g : ℝ → ℝ) {L tol : ℝ} (ht : 0 ≤ tol) : ∀ (n : Nat) (x0 x1 xm w : ℝ), x0 ≤ x1 → tol < w → tol * 2 ^ n < (x1 - x0) * L →
    bisect g L tol n x0 x1 xm w = .error .other := by
  intro n
  induction n with
  | zero =>
    intro x0 x1 xm w _ h _
    unfold bisect
    rw [if_pos h]
  | succ n ih =>
    intro x0 x1 xm w h01 hw hl
    unfold bisect
    rw [if_pos hw]
    simp only
    rw [pow_succ] at hl
    have hhalf : tol * 2 ^ n < (x1 - x0) / 2 * L := by linarith
    have htol : tol < (x1 - x0) / 2 * L := by
      have : (1 : ℝ) ≤ 2 ^ n := one_le_pow₀ (by norm_num)
      nlinarith
    by_cases hg : g (1 / 2 * (x0 + x1) * L) > 0
    · rw [if_pos hg]
      refine ih _ _ _ _ (by linarith) ?_ (by linarith)
      rw [abs_of_nonneg (by linarith)]
      linarith
    · rw [if_neg hg]
      refine ih _ _ _ _ (by linarith) ?_ (by linarith)
      rw [abs_of_nonpos (by linarith)]
      linarith

/-! ### C103 -/

/-- C103: if the distance from the given point, along the arc and a ten-millionth beyond its end, first falls and then rises, the point
returned lies on the arc at a distance `f` from its start that is within the tolerance (and a ten-millionth of the length) of the nearest
position, and the distance returned is the one at `f`. -/
theorem C103_near (fwd : Fwd) (inv : Inv) (pt e0 e1 : ℝ × ℝ) (tol : ℝ) (maxiter : Nat) (ht : 0 ≤ tol) (az L m : ℝ)
    (hinv : (inv e0.1 e0.2 e1.1 e1.2).1 = az ∧ (inv e0.1 e0.2 e1.1 e1.2).2.2 = L) (hL : 0 < L)
    (hstart : ((fwd e0.1 e0.2 az 0).1, (fwd e0.1 e0.2 az 0).2.1) = e0) (hend : ((fwd e0.1 e0.2 az L).1, (fwd e0.1 e0.2 az L).2.1) = e1)
    (hv : Valley (fun f => alongDistance fwd inv e0 pt az f) m (L + L / 10000000)) (r : (ℝ × ℝ) × ℝ)
    (h : ptNearestProj fwd inv pt e0 e1 tol maxiter = .ok r) :
    ∃ f f0, r.1 = ((fwd e0.1 e0.2 az f).1, (fwd e0.1 e0.2 az f).2.1) ∧ r.2 = alongDistance fwd inv e0 pt az f ∧
      0 ≤ f ∧ f ≤ L ∧ Lowest (fun f => alongDistance fwd inv e0 pt az f) L f0 ∧ |f - f0| ≤ tol + L / 10000000 := by
  have hdx : 0 < 1 / 10000000 * L := by positivity
  have hB : L + L / 10000000 = L + 1 / 10000000 * L := by ring
  rw [hB] at hv
  have hlow := valley_lowest hv hL.le (by linarith)
  have hm0 := hv.1
  have hdx' : L / 10000000 = 1 / 10000000 * L := by ring
  rw [hdx']
  unfold ptNearestProj at h
  simp only [hinv.1, hinv.2, gradient] at h
  have g0 := gradient_sign hv hdx (f := 0) le_rfl (by linarith)
  have g1 := gradient_sign hv hdx (f := L) hL.le (by linarith)
  by_cases c0 : (alongDistance fwd inv e0 pt az (0 + 1 / 10000000 * L) - alongDistance fwd inv e0 pt az 0) / (1 / 10000000 * L) > 0
  · rw [if_pos c0] at h
    cases h
    refine ⟨0, min m L, hstart.symm, rfl, le_rfl, hL.le, hlow, ?_⟩
    have := g0.1 c0
    rw [zero_sub, abs_neg, abs_of_nonneg hlow.1]
    linarith [min_le_left m L]
  · rw [if_neg c0] at h
    by_cases c1 : (alongDistance fwd inv e0 pt az (L + 1 / 10000000 * L) - alongDistance fwd inv e0 pt az L) / (1 / 10000000 * L) < 0
    · rw [if_pos c1] at h
      cases h
      refine ⟨L, min m L, hend.symm, rfl, hL.le, le_rfl, hlow, ?_⟩
      have := g1.2.2 c1
      rw [min_eq_right this, sub_self, abs_zero]
      linarith
    · rw [if_neg c1] at h
      cases hb : bisect (fun f => (alongDistance fwd inv e0 pt az (f + 1 / 10000000 * L) - alongDistance fwd inv e0 pt az f) / (1 / 10000000 * L))
          L tol maxiter 0 1 0 (tol + 1) with
      | error e => rw [hb] at h; simp at h
      | ok xm =>
        rw [hb] at h
        simp only [Except.ok.injEq] at h
        subst h
        obtain ⟨k0, k1, k2⟩ := bisect_sound hv hdx hL maxiter 0 1 0 (tol + 1) xm le_rfl zero_le_one le_rfl (by linarith)
          (by linarith [hv.2.1]) (Or.inl (by linarith)) hb
        have kL : xm * L ≤ L := by nlinarith
        refine ⟨xm * L, min m L, rfl, rfl, by positivity, kL, hlow, ?_⟩
        rw [abs_le] at k2 ⊢
        rcases le_total m L with hm | hm
        · rw [min_eq_left hm]; exact k2
        · rw [min_eq_right hm]
          constructor
          · linarith [k2.1]
          · linarith
 
/-- C103, the distance: if moving along the arc changes the distance by no more than the way gone (the triangle inequality), the distance
returned exceeds the distance to no point of the arc by more than the tolerance and a ten-millionth of the length. -/
theorem C103_distance (fwd : Fwd) (inv : Inv) (pt e0 e1 : ℝ × ℝ) (tol : ℝ) (maxiter : Nat) (ht : 0 ≤ tol) (az L m : ℝ)
    (hinv : (inv e0.1 e0.2 e1.1 e1.2).1 = az ∧ (inv e0.1 e0.2 e1.1 e1.2).2.2 = L) (hL : 0 < L)
    (hstart : ((fwd e0.1 e0.2 az 0).1, (fwd e0.1 e0.2 az 0).2.1) = e0) (hend : ((fwd e0.1 e0.2 az L).1, (fwd e0.1 e0.2 az L).2.1) = e1)
    (hv : Valley (fun f => alongDistance fwd inv e0 pt az f) m (L + L / 10000000))
    (htri : ∀ s t, alongDistance fwd inv e0 pt az s ≤ alongDistance fwd inv e0 pt az t + |s - t|) (r : (ℝ × ℝ) × ℝ)
    (h : ptNearestProj fwd inv pt e0 e1 tol maxiter = .ok r) :
    ∀ t, 0 ≤ t → t ≤ L → r.2 ≤ alongDistance fwd inv e0 pt az t + tol + L / 10000000 := by
  obtain ⟨f, f0, -, h2, -, -, hlow, hd⟩ := C103_near fwd inv pt e0 e1 tol maxiter ht az L m hinv hL hstart hend hv r h
  intro t t0 t1
  have := hlow.2.2 t t0 t1
  have := htri f f0
  rw [h2]
  simp only at *
  linarith

/-- C103, termination: a result is returned whenever the arc is no longer than `tol * 2 ^ maxiter`, whatever the geodesic functions. -/
theorem C103_ends (fwd : Fwd) (inv : Inv) (pt e0 e1 : ℝ × ℝ) (tol : ℝ) (maxiter : Nat) (hn : 0 < maxiter)
    (hL : (inv e0.1 e0.2 e1.1 e1.2).2.2 ≤ tol * 2 ^ maxiter) : ∃ r, ptNearestProj fwd inv pt e0 e1 tol maxiter = .ok r := by
  unfold ptNearestProj
  simp only
  split
  · exact ⟨_, rfl⟩
  · split
    · exact ⟨_, rfl⟩
    · obtain ⟨xm, hx⟩ := bisect_ends (L := (inv e0.1 e0.2 e1.1 e1.2).2.2) (tol := tol) (fun f => gradient fwd inv e0 pt (inv e0.1 e0.2 e1.1 e1.2).1 f (1 / 10000000 * (inv e0.1 e0.2 e1.1 e1.2).2.2))
        maxiter 0 1 0 (tol + 1) zero_le_one (by linarith) (by omega)
      rw [hx]
      exact ⟨_, rfl⟩

/-- With the defaults, a tenth of a metre and a hundred rounds, every arc on the Earth is short enough. -/
theorem C103_defaults (fwd : Fwd) (inv : Inv) (pt e0 e1 : ℝ × ℝ) (hL : (inv e0.1 e0.2 e1.1 e1.2).2.2 ≤ 10 ^ 29) :
    ∃ r, ptNearestProj fwd inv pt e0 e1 (1 / 10) 100 = .ok r :=
  C103_ends fwd inv pt e0 e1 _ _ (by norm_num) (hL.trans (by norm_num))

/-- Otherwise, unless an end is nearest, `ConvergenceError` is raised. -/
theorem C103_convergence_error (fwd : Fwd) (inv : Inv) (pt e0 e1 : ℝ × ℝ) (tol : ℝ) (maxiter : Nat) (ht : 0 ≤ tol)
    (hL : tol * 2 ^ maxiter < (inv e0.1 e0.2 e1.1 e1.2).2.2) :
    (∃ d, ptNearestProj fwd inv pt e0 e1 tol maxiter = .ok (e0, d)) ∨ (∃ d, ptNearestProj fwd inv pt e0 e1 tol maxiter = .ok (e1, d)) ∨
      ptNearestProj fwd inv pt e0 e1 tol maxiter = .error .other := by
  unfold ptNearestProj
  simp only
  split
  · exact Or.inl ⟨_, rfl⟩
  · split
    · exact Or.inr (Or.inl ⟨_, rfl⟩)
    · right; right
      rw [bisect_fails _ ht maxiter 0 1 0 (tol + 1) zero_le_one (by linarith) (by linarith)]

/-- The hypothesis of `C103_near` on a sphere of radius `R`: the distance to a point whose foot is at `m` and whose height above the great
circle has the cosine `k > 0` falls and rises, as long as the arc stays within half a turn of the foot. -/
theorem valley_sphere (R k m B : ℝ) (hR : 0 < R) (hk : 0 < k) (hk1 : k ≤ 1) (h0 : 0 ≤ m) (hB : m ≤ B) (h1 : m ≤ Real.pi * R) (h2 : B - m ≤ Real.pi * R) :
    Valley (fun f => R * Real.arccos (k * Real.cos ((f - m) / R))) m B := by
  have key : ∀ a b : ℝ, 0 ≤ a → a < b → b ≤ Real.pi → Real.arccos (k * Real.cos a) < Real.arccos (k * Real.cos b) := by
    intro a b ha hab hb
    have hc := Real.cos_lt_cos_of_nonneg_of_le_pi ha hb hab
    have := Real.neg_one_le_cos b
    have := Real.cos_le_one a
    refine Real.strictAntiOn_arccos ⟨by nlinarith, by nlinarith [Real.cos_le_one b]⟩ ⟨by nlinarith [Real.neg_one_le_cos a], by nlinarith⟩ ?_
    exact mul_lt_mul_of_pos_left hc hk
  refine ⟨h0, hB, fun s t s0 hst htm => ?_, fun s t hms hst htB => ?_⟩
  · apply mul_lt_mul_of_pos_left _ hR
    have e1 : Real.cos ((t - m) / R) = Real.cos ((m - t) / R) := by rw [← Real.cos_neg]; congr 1; ring
    have e2 : Real.cos ((s - m) / R) = Real.cos ((m - s) / R) := by rw [← Real.cos_neg]; congr 1; ring
    rw [e1, e2]
    refine key _ _ (div_nonneg (by linarith) hR.le) (div_lt_div_of_pos_right (by linarith) hR) ?_
    rw [div_le_iff₀ hR]; linarith
  · apply mul_lt_mul_of_pos_left _ hR
    refine key _ _ (div_nonneg (by linarith) hR.le) (div_lt_div_of_pos_right (by linarith) hR) ?_
    rw [div_le_iff₀ hR]; linarith

/-- Going along the axis, with distances measured along both axes. -/
def exFwd : Fwd := fun x y _ f => (x + f, y, 0)
def exInv : Inv := fun x0 y0 x1 y1 => (0, 0, |x1 - x0| + |y1 - y0|)

/-- The arc from (0, 0) to (10, 0) and the point (3, 4): the hypotheses hold with the foot at 3. -/
example (r : (ℝ × ℝ) × ℝ) (h : ptNearestProj exFwd exInv (3, 4) (0, 0) (10, 0) (1 / 10) 100 = .ok r) : r.2 ≤ 4 + 1 / 10 + 10 / 10000000 := by
  have hD : ∀ f, alongDistance exFwd exInv (0, 0) (3, 4) 0 f = |3 - f| + 4 := by
    intro f
    simp only [alongDistance, exFwd, exInv, zero_add, sub_zero]
    rw [abs_of_pos (by norm_num : (0 : ℝ) < 4)]
  have := C103_distance exFwd exInv (3, 4) (0, 0) (10, 0) (1 / 10) 100 (by norm_num) 0 10 3 (by norm_num [exInv]) (by norm_num) (by simp [exFwd]) (by simp [exFwd])
    (by
      simp only [hD]
      refine ⟨by norm_num, by norm_num, fun s t s0 hst htm => ?_, fun s t hms hst htB => ?_⟩
      · beta_reduce; rw [abs_of_nonneg (by linarith), abs_of_nonneg (by linarith)]; linarith
      · beta_reduce; rw [abs_of_nonpos (by linarith), abs_of_nonpos (by linarith)]; linarith)
    (by
      intro s t
      rw [hD, hD]
      have : |3 - s| ≤ |3 - t| + |s - t| := by
        have := abs_sub_le (3 : ℝ) t s
        rw [abs_sub_comm t s] at this
        exact this
      linarith) r h 3 (by norm_num) (by norm_num)
  rw [hD] at this
  norm_num at this ⊢
  linarith

end Karta.NearProj
