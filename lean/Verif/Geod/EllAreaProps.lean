import Verif.Geod.EllArea
import Verif.Geod.InverseProps
import Verif.Geod.SphAreaProps
import Mathlib.Analysis.Real.Pi.Bounds

/-!
# Areas on an ellipsoid: theorems

The area of a polygon does not depend on where its ring starts and in which direction it runs, nor on where along the equator or
in which hemisphere the polygon lies (C150); and it is wrong for polygons that cross the equator.
-/

namespace Karta.Geod.Geodesic
open Karta Karta.Geod Karta.Geod.Sphere

/-- The type of `fzero_brent`. -/
abbrev Root := ℝ → ℝ → (ℝ → ℝ) → ℝ → Except Err ℝ

/-! ### One side -/

/-- The area under a side in canonical configuration. -/
noncomputable def canonSide (root : Root) (a b tol y1 x2 y2 : ℝ) : Except Err ℝ := do
  let i ← ellipsoidalInverse root a b 0 y1 x2 y2 tol
  ellAreaCore a b (y1 * Real.pi / 180) (y2 * Real.pi / 180) (i.1 * Real.pi / 180)

open Classical in
theorem area_canon (root : Root) (a b tol x1 y1 x2 y2 : ℝ) : ellipsoidalArea root a b tol x1 y1 x2 y2 =
    (canonSide root a b tol (canonical x1 y1 x2 y2).y1 (canonical x1 y1 x2 y2).x2 (canonical x1 y1 x2 y2).y2).map
      fun s => (if x2 < x1 then -1 else 1) * s := by
  unfold ellipsoidalArea canonSide
  dsimp only
  cases ellipsoidalInverse root a b 0 (canonical x1 y1 x2 y2).y1 (canonical x1 y1 x2 y2).x2 (canonical x1 y1 x2 y2).y2 tol with
  | error e => rfl
  | ok i =>
    simp only [bind, Except.bind]
    cases ellAreaCore a b ((canonical x1 y1 x2 y2).y1 * Real.pi / 180) ((canonical x1 y1 x2 y2).y2 * Real.pi / 180) (i.1 * Real.pi / 180) <;> rfl

theorem reduce_neg_abs (d : ℝ) : |reduceDeg (-d)| = |reduceDeg d| := by
  obtain ⟨k, hk⟩ := reduce_cong d
  obtain ⟨l, hl⟩ := reduce_cong (-d)
  have h1 := reduce_mem d
  have h2 := reduce_mem (-d)
  have hs : reduceDeg (-d) + reduceDeg d = 360 * ((k + l : ℤ) : ℝ) := by rw [hk, hl]; push_cast; ring
  have u : (k + l : ℤ) < 1 := by
    by_contra hc
    have : (1 : ℝ) ≤ ((k + l : ℤ) : ℝ) := by exact_mod_cast not_lt.mp hc
    linarith
  have v : -2 < (k + l : ℤ) := by
    by_contra hc
    have : ((k + l : ℤ) : ℝ) ≤ -2 := by exact_mod_cast not_lt.mp hc
    linarith
  have : (k + l : ℤ) = 0 ∨ (k + l : ℤ) = -1 := by omega
  rcases this with h | h
  · rw [h] at hs
    rw [show reduceDeg (-d) = -reduceDeg d by push_cast at hs; linarith, abs_neg]
  · rw [h] at hs
    push_cast at hs
    rw [show reduceDeg (-d) = -180 by linarith, show reduceDeg d = -180 by linarith]

theorem canonical_y1 (x1 y1 x2 y2 : ℝ) : (canonical x1 y1 x2 y2).y1 = -max |y1| |y2| := by
  have hy1 : (canonical x1 y1 x2 y2).y1 = if 0 < (if |y1| < |y2| then y2 else y1) then -(if |y1| < |y2| then y2 else y1)
      else (if |y1| < |y2| then y2 else y1) := rfl
  rw [hy1]
  by_cases hf : |y1| < |y2|
  · simp only [hf, if_true]
    rw [max_eq_right hf.le]
    by_cases hs : 0 < y2
    · rw [if_pos hs, abs_of_pos hs]
    · rw [if_neg hs, abs_of_nonpos (not_lt.mp hs), neg_neg]
  · simp only [hf, if_false]
    rw [max_eq_left (not_lt.mp hf)]
    by_cases hs : 0 < y1
    · rw [if_pos hs, abs_of_pos hs]
    · rw [if_neg hs, abs_of_nonpos (not_lt.mp hs), neg_neg]

/-- What the configuration depends on. -/
theorem canonical_congr {x1 y1 x2 y2 x1' y1' x2' y2' : ℝ} (hx : |reduceDeg (x2 - x1)| = |reduceDeg (x2' - x1')|)
    (hy : y1' = y1 ∧ y2' = y2 ∨ y1' = y2 ∧ y2' = y1 ∨ y1' = -y1 ∧ y2' = -y2) :
    (canonical x1 y1 x2 y2).y1 = (canonical x1' y1' x2' y2').y1 ∧ (canonical x1 y1 x2 y2).x2 = (canonical x1' y1' x2' y2').x2 ∧
    (canonical x1 y1 x2 y2).y2 = (canonical x1' y1' x2' y2').y2 := by
  obtain ⟨k1, k2, k3, k4, k5, k6, k7, k8⟩ := canonical_ok x1 y1 x2 y2
  obtain ⟨l1, l2, l3, l4, l5, l6, l7, l8⟩ := canonical_ok x1' y1' x2' y2'
  have e1 : (canonical x1 y1 x2 y2).y1 = (canonical x1' y1' x2' y2').y1 := by
    rw [canonical_y1, canonical_y1]
    rcases hy with ⟨rfl, rfl⟩ | ⟨rfl, rfl⟩ | ⟨rfl, rfl⟩
    · rfl
    · rw [max_comm]
    · rw [abs_neg, abs_neg]
  refine ⟨e1, by rw [k6, l6, hx], ?_⟩
  have hsum : |(canonical x1 y1 x2 y2).y1 + (canonical x1 y1 x2 y2).y2| = |(canonical x1' y1' x2' y2').y1 + (canonical x1' y1' x2' y2').y2| := by
    rw [k7, l7]
    rcases hy with ⟨rfl, rfl⟩ | ⟨rfl, rfl⟩ | ⟨rfl, rfl⟩
    · rfl
    · rw [add_comm]
    · rw [← abs_neg]; congr 1; ring
  rw [abs_of_nonpos (by linarith), abs_of_nonpos (by linarith), e1] at hsum
  linarith

theorem pyMod_half {x : ℝ} (h0 : 0 ≤ x) (h1 : x < 180) : pyModR (x + 180) 360 = x + 180 := pyModR_self (by linarith) (by linarith)

theorem atan2_zero_pos {x : ℝ} (h : 0 ≤ x) : atan2 0 x = 0 := by
  unfold atan2
  exact Complex.arg_ofReal_of_nonneg h

theorem cos_beta_pos (t : ℝ) : 0 < Real.cos (Real.arctan t) := Real.cos_arctan_pos t

theorem sigma_zero (t : ℝ) : neaSigma 0 (Real.arctan t) = Real.arctan t := by
  have := Real.neg_pi_div_two_lt_arctan t
  have := Real.arctan_lt_pi_div_two t
  have := Real.pi_pos
  unfold neaSigma
  rw [Real.cos_zero, one_mul]
  exact atan2_polar_unit (by linarith) (by linarith)

theorem omega_zero (t : ℝ) : neaOmega 0 (Real.arctan t) = 0 := by
  unfold neaOmega
  rw [Real.sin_zero, zero_mul]
  exact atan2_zero_pos (cos_beta_pos t).le

theorem alphaZero_zero (t : ℝ) : alphaZero 0 t = 0 := by
  unfold alphaZero
  simp only [Real.sin_zero, zero_mul, Real.cos_zero]
  exact atan2_zero_pos (Real.sqrt_nonneg _)

theorem neb_zero (t u : ℝ) : solveNEB 0 0 (Real.arctan t) (Real.arctan u) = .ok (0, Real.arctan u, 0) := by
  have := neb_ok (a0 := 0) (a1 := 0) (b1 := Real.arctan t) (b2 := Real.arctan u) (a2 := 0) (cos_beta_pos u) (by simp) le_rfl Real.pi_pos.le
    (by rw [Real.cos_zero]; ring)
  rwa [sigma_zero, omega_zero] at this

/-- Along a meridian the computed area is 0. -/
theorem core_meridian {a b phi1 phi2 v : ℝ} (h : ellAreaCore a b phi1 phi2 0 = .ok v) : v = 0 := by
  unfold ellAreaCore at h
  dsimp only at h
  rw [alphaZero_zero, sigma_zero, omega_zero, neb_zero] at h
  simp only [bind, Except.bind] at h
  cases h1 : pySqrt ((a - b) / a * (2 - (a - b) / a)) with
  | error e => rw [h1] at h; simp at h
  | ok e =>
  rw [h1] at h
  simp only at h
  cases h2 : pyAtanh e with
  | error e => rw [h2] at h; simp at h
  | ok t =>
  rw [h2] at h
  simp only at h
  cases h3 : pyDiv (b ^ 2 / 2 * t) e with
  | error e => rw [h3] at h; simp at h
  | ok q =>
  rw [h3] at h
  simp only at h
  cases h4 : pySqrt (a ^ 2 / 2 + q) with
  | error e => rw [h4] at h; simp at h
  | ok c =>
  rw [h4] at h
  simp only at h
  generalize pyDiv _ _ = z at h
  cases z with
  | error e => simp at h
  | ok w =>
    simp only [Except.ok.injEq] at h
    rw [← h]
    simp

/-- On the equator the computed area is 0. -/
theorem core_equator {a b alpha v : ℝ} (ha : Real.cos alpha = 0) (h : ellAreaCore a b 0 0 alpha = .ok v) : v = 0 := by
  have hz : Real.arctan ((1 - (a - b) / a) * Real.tan 0) = 0 := by simp
  have hs : neaSigma alpha 0 = 0 := by
    unfold neaSigma
    rw [ha, Real.sin_zero, zero_mul]
    exact atan2_zero_pos le_rfl
  have ho : ∀ a0, neaOmega a0 0 = 0 := by
    intro a0
    unfold neaOmega
    rw [Real.sin_zero, mul_zero, Real.cos_zero]
    exact atan2_zero_pos zero_le_one
  have hn : ∀ a0, solveNEB a0 alpha 0 0 = .ok (Real.pi / 2, 0, 0) := by
    intro a0
    have hp := Real.pi_pos
    have hs' : neaSigma (Real.pi / 2) 0 = 0 := by
      unfold neaSigma
      rw [Real.cos_pi_div_two, Real.sin_zero, zero_mul]
      exact atan2_zero_pos le_rfl
    have := neb_ok (a0 := a0) (a1 := alpha) (b1 := 0) (b2 := 0) (a2 := Real.pi / 2) (by simp) (by simp) (by linarith) (by linarith)
      (by rw [ha]; simp)
    rwa [hs', ho] at this
  unfold ellAreaCore at h
  dsimp only at h
  rw [hz, hs, ho, hn] at h
  simp only [bind, Except.bind] at h
  cases h1 : pySqrt ((a - b) / a * (2 - (a - b) / a)) with
  | error e => rw [h1] at h; simp at h
  | ok e =>
  rw [h1] at h
  simp only at h
  cases h2 : pyAtanh e with
  | error e => rw [h2] at h; simp at h
  | ok t =>
  rw [h2] at h
  simp only at h
  cases h3 : pyDiv (b ^ 2 / 2 * t) e with
  | error e => rw [h3] at h; simp at h
  | ok q =>
  rw [h3] at h
  simp only at h
  cases h4 : pySqrt (a ^ 2 / 2 + q) with
  | error e => rw [h4] at h; simp at h
  | ok c =>
  rw [h4] at h
  simp only at h
  generalize pyDiv _ _ = z at h
  cases z with
  | error e => simp at h
  | ok w =>
    simp only [Except.ok.injEq] at h
    rw [← h]
    simp

theorem canonSide_equator {root : Root} {a b tol x v : ℝ} (h : canonSide root a b tol 0 x 0 = .ok v) : v = 0 := by
  unfold canonSide ellipsoidalInverse at h
  rw [if_pos ⟨rfl, rfl⟩] at h
  simp only [bind, Except.bind, zero_mul, zero_div] at h
  refine core_equator ?_ h
  unfold inverseEquatorial
  split_ifs
  · rw [show (-90 : ℝ) * Real.pi / 180 = -(Real.pi / 2) by ring, Real.cos_neg, Real.cos_pi_div_two]
  · rw [show (90 : ℝ) * Real.pi / 180 = Real.pi / 2 by ring, Real.cos_pi_div_two]

theorem canonical_id {y1 y2 : ℝ} (h1 : y1 ≤ 0) (h2 : y1 ≤ y2) (h3 : y2 ≤ -y1) :
    (canonical 0 y1 0 y2).yflip = false ∧ (canonical 0 y1 0 y2).ysignswap = false ∧ (canonical 0 y1 0 y2).xflip = false ∧
    (canonical 0 y1 0 y2).y1 = y1 ∧ (canonical 0 y1 0 y2).y2 = y2 ∧ (canonical 0 y1 0 y2).x2 = 0 := by
  have hf : ¬ |y1| < |y2| := by
    rw [not_lt, abs_of_nonpos h1, abs_le]; constructor <;> linarith
  have hr : reduceDeg (0 - 0 : ℝ) = 0 := by rw [sub_zero, reduce_zero]
  unfold canonical
  simp only [hf, if_false, hr, decide_false, lt_irrefl, not_lt.mpr h1, false_or,
    not_lt.mpr (show (0 : ℝ) ≤ 180 by norm_num), and_self]

theorem canonSide_meridian {root : Root} {a b tol y1 y2 v : ℝ} (h1 : y1 ≤ 0) (h2 : y1 ≤ y2) (h3 : y2 ≤ -y1)
    (h : canonSide root a b tol y1 0 y2 = .ok v) : v = 0 := by
  by_cases hz : y1 = y2 ∧ y2 = 0
  · obtain ⟨rfl, rfl⟩ := hz
    exact canonSide_equator h
  obtain ⟨c1, c2, c3, c4, c5, c6⟩ := canonical_id h1 h2 h3
  unfold canonSide ellipsoidalInverse at h
  rw [if_neg hz] at h
  dsimp only at h
  have ht : triangle root a b tol (canonical 0 y1 0 y2) = .ok ⟨0, 0, 0, neaSigma 0 (Real.arctan ((1 - (a - b) / a) * Real.tan (y1 * Real.pi / 180))),
      Real.arctan ((1 - (a - b) / a) * Real.tan (y2 * Real.pi / 180))⟩ := by
    unfold triangle
    dsimp only
    rw [c6, if_pos rfl, c4, c5, alphaZero_zero, neb_zero]
    rfl
  rw [ht] at h
  simp only [bind, Except.bind, undo, c1, c2, c3, if_false, Bool.false_eq_true, zero_mul, zero_div, zero_add] at h
  rw [pyModR_self (by norm_num) (by norm_num)] at h
  simp only [sub_self, zero_mul, zero_div] at h
  exact core_meridian h

/-- The area under a side changes its sign with the direction. -/
theorem area_back (root : Root) (a b tol x1 y1 x2 y2 : ℝ) :
    ellipsoidalArea root a b tol x2 y2 x1 y1 = (ellipsoidalArea root a b tol x1 y1 x2 y2).map fun v => -v := by
  obtain ⟨e1, e2, e3⟩ := canonical_congr (x1 := x2) (y1 := y2) (x2 := x1) (y2 := y1) (x1' := x1) (y1' := y1) (x2' := x2) (y2' := y2)
    (by rw [← reduce_neg_abs, neg_sub]) (Or.inr (Or.inl ⟨rfl, rfl⟩))
  rw [area_canon, area_canon, e1, e2, e3]
  obtain ⟨k1, k2, k3, k4, k5, k6, k7, k8⟩ := canonical_ok x1 y1 x2 y2
  rcases lt_trichotomy x1 x2 with hx | hx | hx
  · rw [if_pos hx, if_neg (not_lt.mpr hx.le)]
    cases canonSide root a b tol (canonical x1 y1 x2 y2).y1 (canonical x1 y1 x2 y2).x2 (canonical x1 y1 x2 y2).y2 with
    | error e => rfl
    | ok v => simp [Except.map]
  · have hx2 : (canonical x1 y1 x2 y2).x2 = 0 := by rw [k6, hx, sub_self, reduce_zero, abs_zero]
    rw [hx2]
    cases hc : canonSide root a b tol (canonical x1 y1 x2 y2).y1 0 (canonical x1 y1 x2 y2).y2 with
    | error e => rfl
    | ok v =>
      have := canonSide_meridian k1 k2 k3 hc
      simp [Except.map, this]
  · rw [if_neg (not_lt.mpr hx.le), if_pos hx]
    cases canonSide root a b tol (canonical x1 y1 x2 y2).y1 (canonical x1 y1 x2 y2).x2 (canonical x1 y1 x2 y2).y2 with
    | error e => rfl
    | ok v => simp [Except.map]

theorem area_shift (root : Root) (a b tol d x1 y1 x2 y2 : ℝ) :
    ellipsoidalArea root a b tol (x1 + d) y1 (x2 + d) y2 = ellipsoidalArea root a b tol x1 y1 x2 y2 := by
  obtain ⟨e1, e2, e3⟩ := canonical_congr (x1 := x1 + d) (y1 := y1) (x2 := x2 + d) (y2 := y2) (x1' := x1) (y1' := y1) (x2' := x2) (y2' := y2)
    (by rw [add_sub_add_right_eq_sub]) (Or.inl ⟨rfl, rfl⟩)
  rw [area_canon, area_canon, e1, e2, e3]
  simp only [add_lt_add_iff_right]

theorem area_south (root : Root) (a b tol x1 y1 x2 y2 : ℝ) :
    ellipsoidalArea root a b tol x1 (-y1) x2 (-y2) = ellipsoidalArea root a b tol x1 y1 x2 y2 := by
  obtain ⟨e1, e2, e3⟩ := canonical_congr (x1 := x1) (y1 := y1) (x2 := x2) (y2 := y2) (x1' := x1) (y1' := -y1) (x2' := x2) (y2' := -y2)
    rfl (Or.inr (Or.inr ⟨rfl, rfl⟩))
  rw [area_canon, area_canon, e1, e2, e3]

theorem area_west (root : Root) (a b tol x1 y1 x2 y2 : ℝ) :
    ellipsoidalArea root a b tol (-x1) y1 (-x2) y2 = (ellipsoidalArea root a b tol x1 y1 x2 y2).map fun v => -v := by
  rw [← area_back]
  obtain ⟨e1, e2, e3⟩ := canonical_congr (x1 := -x1) (y1 := y1) (x2 := -x2) (y2 := y2) (x1' := x2) (y1' := y2) (x2' := x1) (y2' := y1)
    (by rw [show -x2 - -x1 = x1 - x2 by ring]) (Or.inr (Or.inl ⟨rfl, rfl⟩))
  rw [area_canon, area_canon, e1, e2, e3]
  simp only [neg_lt_neg_iff]

/-! ### Rings -/

/-- The number in a result. -/
noncomputable def num : Except Err ℝ → ℝ
  | .ok v => v
  | .error _ => 0

theorem sides_ok (root : Root) (a b tol : ℝ) (L : List ((ℝ × ℝ) × (ℝ × ℝ))) (v : ℝ) : ellSides root a b tol L = .ok v ↔
    (∀ s ∈ L, ∃ w, ellipsoidalArea root a b tol s.1.1 s.1.2 s.2.1 s.2.2 = .ok w) ∧
    v = (L.map fun s => num (ellipsoidalArea root a b tol s.1.1 s.1.2 s.2.1 s.2.2)).sum := by
  induction L generalizing v with
  | nil => simp [ellSides, eq_comm]
  | cons s r ih =>
    unfold ellSides
    cases h : ellipsoidalArea root a b tol s.1.1 s.1.2 s.2.1 s.2.2 with
    | error e => simp [bind, Except.bind, h]
    | ok w =>
      simp only [bind, Except.bind]
      cases h' : ellSides root a b tol r with
      | error e =>
        simp only [reduceCtorEq, false_iff]
        rintro ⟨h1, -⟩
        have := (ih _).mpr ⟨fun t ht => h1 t (by simp [ht]), rfl⟩
        rw [h'] at this
        simp at this
      | ok u =>
        obtain ⟨h1, h2⟩ := (ih u).mp h'
        simp only [Except.ok.injEq, List.mem_cons, List.map_cons, List.sum_cons, h]
        rw [← h2]
        constructor
        · rintro rfl
          refine ⟨?_, rfl⟩
          rintro t (rfl | ht)
          · exact ⟨w, h⟩
          · exact h1 t ht
        · rintro ⟨-, rfl⟩
          rfl

theorem sides_perm (root : Root) (a b tol : ℝ) {L M : List ((ℝ × ℝ) × (ℝ × ℝ))} (h : L.Perm M) (v : ℝ) :
    ellSides root a b tol L = .ok v ↔ ellSides root a b tol M = .ok v := by
  rw [sides_ok, sides_ok, (h.map _).sum_eq]
  refine and_congr ⟨fun k s hs => k s (h.mem_iff.mpr hs), fun k s hs => k s (h.mem_iff.mp hs)⟩ Iff.rfl

theorem num_neg (x : Except Err ℝ) : num (x.map fun v => -v) = -num x := by
  cases x <;> simp [num, Except.map]

/-- A map of sides that changes the sign of every area. -/
theorem sides_neg (root : Root) (a b tol : ℝ) (m : (ℝ × ℝ) × (ℝ × ℝ) → (ℝ × ℝ) × (ℝ × ℝ)) (L : List ((ℝ × ℝ) × (ℝ × ℝ)))
    (hm : ∀ s, ellipsoidalArea root a b tol (m s).1.1 (m s).1.2 (m s).2.1 (m s).2.2 =
      (ellipsoidalArea root a b tol s.1.1 s.1.2 s.2.1 s.2.2).map fun v => -v) (v : ℝ) :
    ellSides root a b tol (L.map m) = .ok v ↔ ellSides root a b tol L = .ok (-v) := by
  rw [sides_ok, sides_ok]
  refine and_congr ?_ ?_
  · simp only [List.mem_map, forall_exists_index, and_imp, forall_apply_eq_imp_iff₂, hm]
    refine forall₂_congr fun s _ => ?_
    cases ellipsoidalArea root a b tol s.1.1 s.1.2 s.2.1 s.2.2 <;> simp [Except.map]
  · rw [List.map_map]
    have : ((fun s : (ℝ × ℝ) × (ℝ × ℝ) => num (ellipsoidalArea root a b tol s.1.1 s.1.2 s.2.1 s.2.2)) ∘ m) =
        fun s => -num (ellipsoidalArea root a b tol s.1.1 s.1.2 s.2.1 s.2.2) := by
      funext s
      simp only [Function.comp, hm, num_neg]
    rw [this]
    have hs : (L.map fun s => -num (ellipsoidalArea root a b tol s.1.1 s.1.2 s.2.1 s.2.2)).sum =
        -(L.map fun s => num (ellipsoidalArea root a b tol s.1.1 s.1.2 s.2.1 s.2.2)).sum := by
      induction L with
      | nil => simp
      | cons s r ih => simp only [List.map_cons, List.sum_cons, ih, neg_add]
    rw [hs]
    exact ⟨fun h => by rw [h, neg_neg], fun h => by rw [← h, neg_neg]⟩

theorem segs_snoc (q : List (ℝ × ℝ)) (z x : ℝ × ℝ) : (q ++ [z, x]).zip (q ++ [z, x]).tail = (q ++ [z]).zip (q ++ [z]).tail ++ [(z, x)] := by
  induction q with
  | nil => rfl
  | cons y r ih =>
    cases r with
    | nil => rfl
    | cons w t =>
      simp only [List.cons_append, List.tail_cons, List.zip_cons_cons, List.cons.injEq, true_and] at ih ⊢
      exact ih

theorem segs_reverse (p : List (ℝ × ℝ)) : (p.reverse.zip p.reverse.tail) = ((p.zip p.tail).map Prod.swap).reverse := by
  induction p with
  | nil => rfl
  | cons x r ih =>
    cases r with
    | nil => rfl
    | cons y t =>
      have : (x :: y :: t).reverse = t.reverse ++ [y, x] := by simp
      rw [this, segs_snoc]
      have e : t.reverse ++ [y] = (y :: t).reverse := by simp
      rw [e, ih]
      simp

/-- The sides of the reversed ring are the sides turned round. -/
theorem ringSegs_reverse (l : List (ℝ × ℝ)) : (ringSegs l.reverse).Perm ((ringSegs l).map Prod.swap) := by
  refine (ringSegs_perm l.reverse).trans ?_
  cases hz : l.getLast? with
  | none =>
    rw [List.getLast?_eq_none_iff] at hz
    subst hz
    simp [roundTrip, ringSegs]
  | some z =>
    have h1 : roundTrip l.reverse = (z :: l).reverse := by
      unfold roundTrip
      rw [List.head?_reverse, hz]
      simp
    have h2 : ringSegs l = (z :: l).zip (z :: l).tail := by
      unfold ringSegs
      rw [hz]
      rfl
    rw [h1, h2, segs_reverse]
    exact List.reverse_perm _

theorem ringSegs_rotate1 (x : ℝ × ℝ) (t : List (ℝ × ℝ)) : (ringSegs (t ++ [x])).Perm (ringSegs (x :: t)) := by
  refine (ringSegs_perm _).trans ((List.Perm.trans ?_ (ringSegs_perm _).symm))
  cases t with
  | nil => rfl
  | cons y r =>
    have h1 : roundTrip (y :: r ++ [x]) = (y :: r) ++ [x, y] := by simp [roundTrip]
    have h2 : roundTrip (x :: y :: r) = x :: (y :: r ++ [x]) := by simp [roundTrip]
    rw [h1, h2, segs_snoc]
    simp only [List.cons_append, List.tail_cons, List.zip_cons_cons]
    exact List.perm_append_singleton _ _

theorem ringSegs_rotate (k : Nat) : ∀ l : List (ℝ × ℝ), (ringSegs (l.rotate k)).Perm (ringSegs l) := by
  induction k with
  | zero => intro l; rw [List.rotate_zero]
  | succ k ih =>
    intro l
    cases l with
    | nil => simp
    | cons x t =>
      rw [List.rotate_cons_succ]
      exact (ih _).trans (ringSegs_rotate1 x t)

theorem ringSegs_map (m : ℝ × ℝ → ℝ × ℝ) (l : List (ℝ × ℝ)) : ringSegs (l.map m) = (ringSegs l).map fun s => (m s.1, m s.2) := by
  unfold ringSegs
  rw [List.getLast?_map]
  cases l.getLast? with
  | none => rfl
  | some z =>
    simp only [Option.map_some]
    rw [← List.map_cons, List.zip_map]
    rfl

/-! ### C150: how the polygon is written and where it lies -/

mutual
/-- Spec: a polygon with every vertex moved. -/
def Poly.move (m : ℝ × ℝ → ℝ × ℝ) : Poly → Poly
  | .mk ring subs => .mk (ring.map m) (movePolys m subs)
/-- Spec: several polygons with every vertex moved. -/
def movePolys (m : ℝ × ℝ → ℝ × ℝ) : List Poly → List Poly
  | [] => []
  | p :: ps => Poly.move m p :: movePolys m ps
end

theorem poly_ok (root : Root) (a b tol : ℝ) (ring : List (ℝ × ℝ)) (subs : List Poly) (v : ℝ) :
    ellPolyArea root a b tol (.mk ring subs) = .ok v ↔
      ∃ u w, ellSides root a b tol (ringSegs ring) = .ok u ∧ ellSubsArea root a b tol subs = .ok w ∧ |u| - w = v := by
  unfold ellPolyArea
  cases h : ellSides root a b tol (ringSegs ring) with
  | error e => simp [bind, Except.bind]
  | ok u =>
    cases h' : ellSubsArea root a b tol subs with
    | error e => simp [bind, Except.bind]
    | ok w => simp [bind, Except.bind]

/-- **C150.**  The area does not depend on the vertex at which the ring starts. -/
theorem C150_start (root : Root) (a b tol : ℝ) (ring : List (ℝ × ℝ)) (subs : List Poly) (k : Nat) (v : ℝ) :
    ellPolyArea root a b tol (.mk (ring.rotate k) subs) = .ok v ↔ ellPolyArea root a b tol (.mk ring subs) = .ok v := by
  rw [poly_ok, poly_ok]
  refine exists_congr fun u => exists_congr fun w => ?_
  rw [sides_perm root a b tol (ringSegs_rotate k ring) u]

/-- **C150.**  The area does not depend on the direction of the ring. -/
theorem C150_direction (root : Root) (a b tol : ℝ) (ring : List (ℝ × ℝ)) (subs : List Poly) (v : ℝ) :
    ellPolyArea root a b tol (.mk ring.reverse subs) = .ok v ↔ ellPolyArea root a b tol (.mk ring subs) = .ok v := by
  have key : ∀ u, ellSides root a b tol (ringSegs ring.reverse) = .ok u ↔ ellSides root a b tol (ringSegs ring) = .ok (-u) := by
    intro u
    rw [sides_perm root a b tol (ringSegs_reverse ring) u]
    exact sides_neg root a b tol Prod.swap _ (fun s => area_back root a b tol _ _ _ _) u
  rw [poly_ok, poly_ok]
  constructor
  · rintro ⟨u, w, h1, h2, h3⟩
    exact ⟨-u, w, (key u).mp h1, h2, by rw [abs_neg]; exact h3⟩
  · rintro ⟨u, w, h1, h2, h3⟩
    exact ⟨-u, w, (key _).mpr (by rw [neg_neg]; exact h1), h2, by rw [abs_neg]; exact h3⟩

theorem sides_same (root : Root) (a b tol : ℝ) (m : (ℝ × ℝ) × (ℝ × ℝ) → (ℝ × ℝ) × (ℝ × ℝ)) (L : List ((ℝ × ℝ) × (ℝ × ℝ)))
    (hm : ∀ s, ellipsoidalArea root a b tol (m s).1.1 (m s).1.2 (m s).2.1 (m s).2.2 =
      ellipsoidalArea root a b tol s.1.1 s.1.2 s.2.1 s.2.2) : ellSides root a b tol (L.map m) = ellSides root a b tol L := by
  induction L with
  | nil => rfl
  | cons s r ih => rw [List.map_cons, ellSides, ellSides, hm, ih]

/-- A move that keeps the size of the sum over every ring keeps the area of every polygon. -/
theorem move_ok (root : Root) (a b tol : ℝ) (m : ℝ × ℝ → ℝ × ℝ)
    (hm : ∀ l u, ellSides root a b tol (ringSegs (l.map m)) = .ok u →
      ∃ u', ellSides root a b tol (ringSegs l) = .ok u' ∧ |u'| = |u|) :
    (∀ p v, ellPolyArea root a b tol (Poly.move m p) = .ok v → ellPolyArea root a b tol p = .ok v) ∧
    (∀ ps v, ellSubsArea root a b tol (movePolys m ps) = .ok v → ellSubsArea root a b tol ps = .ok v) := by
  suffices h : ∀ p, (∀ v, ellPolyArea root a b tol (Poly.move m p) = .ok v → ellPolyArea root a b tol p = .ok v) by
    refine ⟨h, fun ps => ?_⟩
    induction ps with
    | nil => intro v hv; exact hv
    | cons p ps ih =>
      intro v hv
      rw [movePolys] at hv
      unfold ellSubsArea at hv ⊢
      cases h1 : ellPolyArea root a b tol (Poly.move m p) with
      | error e => rw [h1] at hv; simp [bind, Except.bind] at hv
      | ok x =>
        cases h2 : ellSubsArea root a b tol (movePolys m ps) with
        | error e => rw [h1, h2] at hv; simp [bind, Except.bind] at hv
        | ok y =>
          rw [h1, h2] at hv
          rw [h p x h1, ih y h2]
          exact hv
  intro p
  induction p using Poly.rec (motive_2 := fun ps => ∀ v, ellSubsArea root a b tol (movePolys m ps) = .ok v →
      ellSubsArea root a b tol ps = .ok v) with
  | mk ring subs ih =>
    intro v hv
    rw [Poly.move, poly_ok] at hv
    obtain ⟨u, w, h1, h2, h3⟩ := hv
    obtain ⟨u', h4, h5⟩ := hm ring u h1
    rw [poly_ok]
    exact ⟨u', w, h4, ih w h2, by rw [h5]; exact h3⟩
  | nil v hv => exact hv
  | cons p ps ih1 ih2 v hv =>
    rw [movePolys] at hv
    unfold ellSubsArea at hv ⊢
    cases h1 : ellPolyArea root a b tol (Poly.move m p) with
    | error e => rw [h1] at hv; simp [bind, Except.bind] at hv
    | ok x =>
      cases h2 : ellSubsArea root a b tol (movePolys m ps) with
      | error e => rw [h1, h2] at hv; simp [bind, Except.bind] at hv
      | ok y =>
        rw [h1, h2] at hv
        rw [ih1 x h1, ih2 y h2]
        exact hv

theorem move_move (m n : ℝ × ℝ → ℝ × ℝ) (h : ∀ p, n (m p) = p) : ∀ p, Poly.move n (Poly.move m p) = p := by
  intro p
  induction p using Poly.rec (motive_2 := fun ps => movePolys n (movePolys m ps) = ps) with
  | mk ring subs ih =>
    rw [Poly.move, Poly.move, ih, List.map_map]
    congr 1
    rw [show n ∘ m = id from funext h, List.map_id]
  | nil => rfl
  | cons p ps ih1 ih2 => rw [movePolys, movePolys, ih1, ih2]

/-- **C150.**  The area does not depend on where along the equator the polygon lies: every longitude may be shifted by the same
number. -/
theorem C150_shift (root : Root) (a b tol d : ℝ) (p : Poly) (v : ℝ) :
    ellPolyArea root a b tol (Poly.move (fun q => (q.1 + d, q.2)) p) = .ok v ↔ ellPolyArea root a b tol p = .ok v := by
  have key : ∀ d p v, ellPolyArea root a b tol (Poly.move (fun q => (q.1 + d, q.2)) p) = .ok v → ellPolyArea root a b tol p = .ok v := by
    intro d
    refine (move_ok root a b tol _ fun l u h => ⟨u, ?_, rfl⟩).1
    rw [ringSegs_map] at h
    exact (sides_same root a b tol (fun s => ((s.1.1 + d, s.1.2), (s.2.1 + d, s.2.2))) (ringSegs l)
      fun s => area_shift root a b tol d s.1.1 s.1.2 s.2.1 s.2.2).symm.trans h
  refine ⟨key d p v, fun h => key (-d) _ v ?_⟩
  rwa [move_move _ _ (fun q => by simp)]

/-- **C150.**  The area is the same in the other hemisphere, and in the mirror. -/
theorem C150_mirror (root : Root) (a b tol : ℝ) (p : Poly) (v : ℝ) :
    (ellPolyArea root a b tol (Poly.move (fun q => (q.1, -q.2)) p) = .ok v ↔ ellPolyArea root a b tol p = .ok v) ∧
    (ellPolyArea root a b tol (Poly.move (fun q => (-q.1, q.2)) p) = .ok v ↔ ellPolyArea root a b tol p = .ok v) := by
  have k1 : ∀ p v, ellPolyArea root a b tol (Poly.move (fun q => (q.1, -q.2)) p) = .ok v → ellPolyArea root a b tol p = .ok v := by
    refine (move_ok root a b tol _ fun l u h => ⟨u, ?_, rfl⟩).1
    rw [ringSegs_map] at h
    exact (sides_same root a b tol (fun s => ((s.1.1, -s.1.2), (s.2.1, -s.2.2))) (ringSegs l)
      fun s => area_south root a b tol s.1.1 s.1.2 s.2.1 s.2.2).symm.trans h
  have k2 : ∀ p v, ellPolyArea root a b tol (Poly.move (fun q => (-q.1, q.2)) p) = .ok v → ellPolyArea root a b tol p = .ok v := by
    refine (move_ok root a b tol _ fun l u h => ⟨-u, ?_, abs_neg u⟩).1
    rw [ringSegs_map] at h
    exact (sides_neg root a b tol (fun s => ((-s.1.1, s.1.2), (-s.2.1, s.2.2))) (ringSegs l)
      (fun s => area_west root a b tol s.1.1 s.1.2 s.2.1 s.2.2) u).mp h
  refine ⟨⟨k1 p v, fun h => k1 _ v ?_⟩, ⟨k2 p v, fun h => k2 _ v ?_⟩⟩
  · rwa [move_move _ _ (fun q => by simp)]
  · rwa [move_move _ _ (fun q => by simp)]

/-! ### What is computed -/

theorem neb_parallel (a0 a1 t : ℝ) : ∃ q, solveNEB a0 a1 (Real.arctan t) (Real.arctan t) = .ok q := by
  have h := neb_ok (a0 := a0) (a1 := a1) (b1 := Real.arctan t) (b2 := Real.arctan t) (a2 := Real.arccos |Real.cos a1|) (cos_beta_pos t)
    (by rw [Real.cos_arccos (by linarith [abs_nonneg (Real.cos a1)]) (Real.abs_cos_le_one a1)]; exact abs_nonneg _)
    (Real.arccos_nonneg _) (Real.arccos_le_pi _)
    (by rw [Real.cos_arccos (by linarith [abs_nonneg (Real.cos a1)]) (Real.abs_cos_le_one a1), mul_pow, sq_abs]; ring)
  exact ⟨_, h⟩

/-- On an oblate ellipsoid the formula gives a number if the triangle can be solved. -/
theorem core_some (a b phi1 phi2 alpha : ℝ) (hb : 0 < b) (hab : b < a)
    (hq : ∃ q, solveNEB (alphaZero alpha (Real.arctan ((1 - (a - b) / a) * Real.tan phi1))) alpha (Real.arctan ((1 - (a - b) / a) * Real.tan phi1))
      (Real.arctan ((1 - (a - b) / a) * Real.tan phi2)) = .ok q) : ∃ v, ellAreaCore a b phi1 phi2 alpha = .ok v := by
  have ha : 0 < a := hb.trans hab
  have hf0 : 0 < (a - b) / a := div_pos (by linarith) ha
  have hf1 : (a - b) / a < 1 := (div_lt_one ha).mpr (by linarith)
  have e0 : 0 < (a - b) / a * (2 - (a - b) / a) := mul_pos hf0 (by linarith)
  have e1 : (a - b) / a * (2 - (a - b) / a) < 1 := by nlinarith [sq_pos_of_pos (show (0 : ℝ) < 1 - (a - b) / a by linarith)]
  obtain ⟨q, hq⟩ := hq
  unfold ellAreaCore
  dsimp only
  rw [hq]
  have hcos : Real.cos (1 / 2 * Real.arctan ((1 - (a - b) / a) * Real.tan phi2) - 1 / 2 * Real.arctan ((1 - (a - b) / a) * Real.tan phi1)) ≠ 0 := by
    have g1 := Real.neg_pi_div_two_lt_arctan ((1 - (a - b) / a) * Real.tan phi1)
    have g2 := Real.arctan_lt_pi_div_two ((1 - (a - b) / a) * Real.tan phi1)
    have g3 := Real.neg_pi_div_two_lt_arctan ((1 - (a - b) / a) * Real.tan phi2)
    have g4 := Real.arctan_lt_pi_div_two ((1 - (a - b) / a) * Real.tan phi2)
    exact (Real.cos_pos_of_mem_Ioo ⟨by linarith, by linarith⟩).ne'
  have h5 : ∀ x y : ℝ, y ≠ 0 → pyDiv x y = .ok (x / y) := by
    intro x y hy; unfold pyDiv; rw [if_neg hy]
  rw [h5 _ _ hcos]
  set z := (a - b) / a * (2 - (a - b) / a) with hz
  have s0 : 0 < Real.sqrt z := Real.sqrt_pos.mpr e0
  have s1 : Real.sqrt z < 1 := by rw [Real.sqrt_lt' one_pos]; simpa using e1
  have hl : 0 ≤ Real.log ((1 + Real.sqrt z) / (1 - Real.sqrt z)) := Real.log_nonneg (by rw [le_div_iff₀ (by linarith)]; linarith)
  have h1 : pySqrt z = .ok (Real.sqrt z) := by unfold pySqrt; rw [if_neg (not_lt.mpr e0.le)]
  have h2 : pyAtanh (Real.sqrt z) = .ok (1 / 2 * Real.log ((1 + Real.sqrt z) / (1 - Real.sqrt z))) := by
    unfold pyAtanh; rw [if_pos ⟨by linarith, s1⟩]
  have h4 : ∀ x : ℝ, 0 ≤ x → pySqrt x = .ok (Real.sqrt x) := by
    intro x hx; unfold pySqrt; rw [if_neg (not_lt.mpr hx)]
  simp only [bind, Except.bind, h1, h2]
  rw [h5 _ _ s0.ne']
  simp only
  rw [h4 _ (by positivity)]
  exact ⟨_, rfl⟩

theorem core_parallel (a b phi alpha : ℝ) (hb : 0 < b) (hab : b < a) : ∃ v, ellAreaCore a b phi phi alpha = .ok v :=
  core_some a b phi phi alpha hb hab (neb_parallel _ _ _)

theorem inverse_meridian {root : Root} {a b tol y1 y2 : ℝ} (h1 : y1 < 0) (h2 : y1 ≤ y2) (h3 : y2 ≤ -y1) :
    ∃ r, ellipsoidalInverse root a b 0 y1 0 y2 tol = .ok (0, r) := by
  obtain ⟨c1, c2, c3, c4, c5, c6⟩ := canonical_id h1.le h2 h3
  unfold ellipsoidalInverse
  rw [if_neg (by push Not; intro h; rw [← h]; exact h1.ne)]
  dsimp only
  have ht : triangle root a b tol (canonical 0 y1 0 y2) = .ok ⟨0, 0, 0, neaSigma 0 (Real.arctan ((1 - (a - b) / a) * Real.tan (y1 * Real.pi / 180))),
      Real.arctan ((1 - (a - b) / a) * Real.tan (y2 * Real.pi / 180))⟩ := by
    unfold triangle
    dsimp only
    rw [c6, if_pos rfl, c4, c5, alphaZero_zero, neb_zero]
    rfl
  rw [ht]
  simp only [bind, Except.bind, undo, c1, c2, c3, if_false, Bool.false_eq_true, zero_mul, zero_div, zero_add]
  rw [pyModR_self (by norm_num) (by norm_num), sub_self]
  exact ⟨_, rfl⟩

theorem area_meridian_ok {root : Root} {a b tol x y1 y2 : ℝ} (hb : 0 < b) (hab : b < a) (hy : y1 ≠ 0) :
    ellipsoidalArea root a b tol x y1 x y2 = .ok 0 := by
  obtain ⟨k1, k2, k3, k4, k5, k6, k7, k8⟩ := canonical_ok x y1 x y2
  have hneg : (canonical x y1 x y2).y1 < 0 := by
    rw [canonical_y1]
    have : 0 < max |y1| |y2| := lt_max_of_lt_left (abs_pos.mpr hy)
    linarith
  obtain ⟨r, hr⟩ := inverse_meridian (root := root) (a := a) (b := b) (tol := tol) hneg k2 k3
  obtain ⟨v, hv⟩ := core_some a b ((canonical x y1 x y2).y1 * Real.pi / 180) ((canonical x y1 x y2).y2 * Real.pi / 180) 0 hb hab
    (by rw [alphaZero_zero, neb_zero]; exact ⟨_, rfl⟩)
  have hc : canonSide root a b tol (canonical x y1 x y2).y1 0 (canonical x y1 x y2).y2 = .ok v := by
    unfold canonSide
    rw [hr]
    simp only [bind, Except.bind, zero_mul, zero_div]
    exact hv
  rw [area_canon, k6, sub_self, reduce_zero, abs_zero, hc, core_meridian hv]
  simp [Except.map]

theorem newton_stops (a b lam t alpha : ℝ) (n : Nat) :
    ∃ tol r, 0 ≤ tol ∧ newton a b lam (Real.arctan t) (Real.arctan t) tol (n + 1) alpha = .ok r := by
  obtain ⟨q, hq⟩ := neb_parallel (alphaZero alpha (Real.arctan t)) alpha t
  refine ⟨|lambdaError ((a - b) / a) lam (epsOf ((a - b) / a * (2 - (a - b) / a) / (1 - (a - b) / a * (2 - (a - b) / a)) *
      Real.cos (alphaZero alpha (Real.arctan t)) ^ 2)) (alphaZero alpha (Real.arctan t)) (neaSigma alpha (Real.arctan t))
      (neaOmega (alphaZero alpha (Real.arctan t)) (neaSigma alpha (Real.arctan t))) q.2.1 q.2.2|,
    ⟨alphaZero alpha (Real.arctan t), alpha, q.1, neaSigma alpha (Real.arctan t), q.2.1⟩, abs_nonneg _, ?_⟩
  unfold newton
  dsimp only
  rw [hq]
  simp only [bind, Except.bind]
  rw [if_neg (lt_irrefl _)]

/-- A side with its ends on one parallel has an area, for a tolerance that the first guess meets. -/
theorem canonSide_parallel (root : Root) {a b y x : ℝ} (hb : 0 < b) (hab : b < a) (hy : y ≤ -1 / 2) (hx0 : 0 < x) (hx1 : x ≤ 179) :
    ∃ tol v, 0 ≤ tol ∧ canonSide root a b tol y x y = .ok v := by
  have hpi := Real.pi_gt_three
  have hpi4 := Real.pi_lt_four
  obtain ⟨k1, k2, k3, k4, k5, k6, k7, k8⟩ := canonical_ok 0 y x y
  have c1 : (canonical 0 y x y).y1 = y := by rw [canonical_y1, max_self, abs_of_neg (by linarith), neg_neg]
  have c2 : (canonical 0 y x y).y2 = y := by
    rcases k8 with ⟨-, h⟩ | ⟨h, -⟩ | ⟨-, h⟩ | ⟨h, -⟩
    · exact h
    · linarith
    · exact h
    · linarith
  have c3 : (canonical 0 y x y).x2 = x := by
    rw [k6, sub_zero, reduce_small (by linarith) (by linarith), abs_of_pos hx0]
  obtain ⟨tol, t, ht, hn⟩ := newton_stops a b ((x - 0) * Real.pi / 180) ((1 - (a - b) / a) * Real.tan (y * Real.pi / 180))
    (solveVincenty a ((a - b) / a) ((x - 0) * Real.pi / 180) (y * Real.pi / 180) (y * Real.pi / 180)).1 99
  have l0 : 0 < (x - 0) * Real.pi / 180 := by rw [sub_zero]; positivity
  have l1 : (x - 0) * Real.pi / 180 < Real.pi - 1 / 60 := by rw [sub_zero]; nlinarith
  have htri : triangle root a b tol (canonical 0 y x y) = .ok t := by
    unfold triangle
    dsimp only
    rw [c1, c2, c3, if_neg hx0.ne, pyModR_self l0.le (by linarith), if_neg (by
      rw [abs_sub_comm, abs_of_pos (by linarith)]; push Not; linarith), if_pos (by
      refine ⟨?_, ?_⟩
      · rw [abs_sub_comm, abs_of_pos (by linarith)]; linarith
      · rw [abs_of_neg (by nlinarith)]; nlinarith)]
    exact hn
  have hinv : ∃ i, ellipsoidalInverse root a b 0 y x y tol = .ok i := by
    unfold ellipsoidalInverse
    rw [if_neg (by push Not; intro _; linarith)]
    dsimp only
    rw [htri]
    exact ⟨_, rfl⟩
  obtain ⟨i, hi⟩ := hinv
  obtain ⟨v, hv⟩ := core_parallel a b (y * Real.pi / 180) (i.1 * Real.pi / 180) hb hab
  refine ⟨tol, v, ht, ?_⟩
  unfold canonSide
  rw [hi]
  exact hv

/-- **C150 is violated by polygons that cross the equator**: the signs of the hemispheres are lost, and the area of a polygon that
is symmetric about the equator is 0 if it is a number at all.  It is a number on every oblate ellipsoid, if the tolerance is met. -/
theorem C150_violated_equator (root : Root) (a b x1 x2 y : ℝ) :
    (∀ tol v, ellPolyArea root a b tol (.mk [(x1, -y), (x2, -y), (x2, y), (x1, y)] []) = .ok v → v = 0) ∧
    (0 < b → b < a → 1 / 2 ≤ y → x1 < x2 → x2 - x1 ≤ 179 →
      ∃ tol, 0 ≤ tol ∧ ellPolyArea root a b tol (.mk [(x1, -y), (x2, -y), (x2, y), (x1, y)] []) = .ok 0) := by
  have hsum : ∀ tol v, ellSides root a b tol (ringSegs [(x1, -y), (x2, -y), (x2, y), (x1, y)]) = .ok v → v = 0 := by
    intro tol v h
    rw [sides_ok] at h
    obtain ⟨h1, h2⟩ := h
    have hseg : ringSegs [(x1, -y), (x2, -y), (x2, y), (x1, y)] =
      [((x1, y), (x1, -y)), ((x1, -y), (x2, -y)), ((x2, -y), (x2, y)), ((x2, y), (x1, y))] := rfl
    have hmer : ∀ x u w, num (ellipsoidalArea root a b tol x u x w) = 0 := by
      intro x u w
      obtain ⟨k1, k2, k3, k4, k5, k6, k7, k8⟩ := canonical_ok x u x w
      rw [area_canon, k6, sub_self, reduce_zero, abs_zero]
      cases hc : canonSide root a b tol (canonical x u x w).y1 0 (canonical x u x w).y2 with
      | error e => rfl
      | ok v => simp [num, Except.map, canonSide_meridian k1 k2 k3 hc]
    rw [hseg] at h2
    simp only [List.map_cons, List.map_nil, List.sum_cons, List.sum_nil, hmer] at h2
    rw [h2, area_south root a b tol x1 y x2 y, area_back root a b tol x1 y x2 y, num_neg]
    ring
  have hz : ∀ tol v, ellPolyArea root a b tol (.mk [(x1, -y), (x2, -y), (x2, y), (x1, y)] []) = .ok v → v = 0 := by
    intro tol v h
    rw [poly_ok] at h
    obtain ⟨u, w, h1, h2, h3⟩ := h
    have hw : w = 0 := by
      unfold ellSubsArea at h2
      simpa using h2.symm
    rw [← h3, hsum tol u h1, hw]
    simp
  refine ⟨hz, fun hb hab hy hx hx' => ?_⟩
  obtain ⟨tol, v, ht, hv⟩ := canonSide_parallel root hb hab (show -y ≤ -1 / 2 by linarith) (show 0 < x2 - x1 by linarith) hx'
  have hE : ellipsoidalArea root a b tol x1 (-y) x2 (-y) = .ok v := by
    obtain ⟨k1, k2, k3, k4, k5, k6, k7, k8⟩ := canonical_ok x1 (-y) x2 (-y)
    have c1 : (canonical x1 (-y) x2 (-y)).y1 = -y := by rw [canonical_y1, max_self, abs_neg, abs_of_pos (by linarith)]
    have c2 : (canonical x1 (-y) x2 (-y)).y2 = -y := by
      rcases k8 with ⟨-, h⟩ | ⟨h, -⟩ | ⟨-, h⟩ | ⟨h, -⟩
      · exact h
      · rw [c1] at h; linarith
      · exact h
      · rw [c1] at h; linarith
    rw [area_canon, c1, c2, k6, reduce_small (by linarith) (by linarith), abs_of_pos (by linarith), hv, if_neg (not_lt.mpr hx.le)]
    simp [Except.map]
  refine ⟨tol, ht, ?_⟩
  have hS : ∃ u, ellSides root a b tol (ringSegs [(x1, -y), (x2, -y), (x2, y), (x1, y)]) = .ok u := by
    refine ⟨_, (sides_ok _ _ _ _ _ _).mpr ⟨?_, rfl⟩⟩
    have hseg : ringSegs [(x1, -y), (x2, -y), (x2, y), (x1, y)] =
      [((x1, y), (x1, -y)), ((x1, -y), (x2, -y)), ((x2, -y), (x2, y)), ((x2, y), (x1, y))] := rfl
    rw [hseg]
    intro s hs
    simp only [List.mem_cons, List.not_mem_nil, or_false] at hs
    rcases hs with rfl | rfl | rfl | rfl
    · exact ⟨0, area_meridian_ok hb hab (by linarith)⟩
    · exact ⟨v, hE⟩
    · exact ⟨0, area_meridian_ok hb hab (by linarith)⟩
    · refine ⟨-v, ?_⟩
      show ellipsoidalArea root a b tol x2 y x1 y = _
      rw [area_back, ← area_south, hE]
      rfl
  obtain ⟨u, hu⟩ := hS
  rw [poly_ok]
  exact ⟨u, 0, hu, rfl, by rw [hsum tol u hu]; simp⟩

theorem area_equator_ok {root : Root} {a b tol x1 x2 : ℝ} (hb : 0 < b) (hab : b < a) : ellipsoidalArea root a b tol x1 0 x2 0 = .ok 0 := by
  obtain ⟨k1, k2, k3, k4, k5, k6, k7, k8⟩ := canonical_ok x1 0 x2 0
  have c1 : (canonical x1 0 x2 0).y1 = 0 := by rw [canonical_y1]; simp
  have c2 : (canonical x1 0 x2 0).y2 = 0 := by rw [c1] at k2 k3; linarith
  have hc : ∃ v, canonSide root a b tol 0 (canonical x1 0 x2 0).x2 0 = .ok v := by
    unfold canonSide ellipsoidalInverse
    rw [if_pos ⟨rfl, rfl⟩]
    exact core_parallel a b _ _ hb hab
  obtain ⟨v, hv⟩ := hc
  rw [area_canon, c1, c2, hv, canonSide_equator hv]
  simp [Except.map]

theorem area_meridian_any {root : Root} {a b tol x y1 y2 : ℝ} (hb : 0 < b) (hab : b < a) : ellipsoidalArea root a b tol x y1 x y2 = .ok 0 := by
  by_cases h1 : y1 = 0
  · by_cases h2 : y2 = 0
    · rw [h1, h2]; exact area_equator_ok hb hab
    · rw [area_back, area_meridian_ok hb hab h2]; simp [Except.map]
  · exact area_meridian_ok hb hab h1

/-- **C150.**  Rings that enclose nothing, along the equator or along a meridian, have area 0 on every oblate ellipsoid. -/
theorem C150_flat (root : Root) (a b tol : ℝ) (hb : 0 < b) (hab : b < a) (ring : List (ℝ × ℝ))
    (h : (∀ p ∈ ring, p.2 = 0) ∨ ∃ x, ∀ p ∈ ring, p.1 = x) : ellPolyArea root a b tol (.mk ring []) = .ok 0 := by
  have hm : ∀ s ∈ ringSegs ring, s.1 ∈ ring ∧ s.2 ∈ ring := by
    intro s hs
    unfold ringSegs at hs
    cases hz : ring.getLast? with
    | none => rw [hz] at hs; simp at hs
    | some z =>
      rw [hz] at hs
      obtain ⟨m1, m2⟩ := List.of_mem_zip (show (s.1, s.2) ∈ _ from hs)
      refine ⟨?_, m2⟩
      rcases List.mem_cons.mp m1 with e | e
      · rw [e]; exact List.mem_of_getLast? hz
      · exact e
  have hside : ∀ s ∈ ringSegs ring, ellipsoidalArea root a b tol s.1.1 s.1.2 s.2.1 s.2.2 = .ok 0 := by
    intro s hs
    obtain ⟨m1, m2⟩ := hm s hs
    rcases h with h | ⟨x, h⟩
    · rw [h _ m1, h _ m2]; exact area_equator_ok hb hab
    · rw [h _ m1, h _ m2]; exact area_meridian_any hb hab
  rw [poly_ok]
  refine ⟨0, 0, (sides_ok _ _ _ _ _ _).mpr ⟨fun s hs => ⟨0, hside s hs⟩, ?_⟩, rfl, by simp⟩
  symm
  apply List.sum_eq_zero
  intro v hv
  obtain ⟨s, hs, rfl⟩ := List.mem_map.mp hv
  rw [hside s hs]
  rfl

/-- The hypotheses are met: four sides of 20 by 10 degrees north of the equator, on the WGS84 ellipsoid, have an area (for a
tolerance that the first guess meets), and so has every rewriting of the ring. -/
example (root : Root) : ∃ tol v, ellPolyArea root 6378137 6356752 tol (.mk [(0, 0), (20, 0), (20, 10), (0, 10)] []) = .ok v ∧
    ellPolyArea root 6378137 6356752 tol (.mk [(0, 10), (20, 10), (20, 0), (0, 0)] []) = .ok v ∧
    ellPolyArea root 6378137 6356752 tol (.mk [(20, 10), (0, 10), (0, 0), (20, 0)] []) = .ok v ∧
    ellPolyArea root 6378137 6356752 tol (Poly.move (fun q => (q.1 + 30, q.2)) (.mk [(0, 0), (20, 0), (20, 10), (0, 10)] [])) = .ok v := by
  obtain ⟨tol, v, ht, hv⟩ := canonSide_parallel root (a := 6378137) (b := 6356752) (y := -10) (x := 20) (by norm_num) (by norm_num)
    (by norm_num) (by norm_num) (by norm_num)
  have hE : ellipsoidalArea root 6378137 6356752 tol 0 (-10) 20 (-10) = .ok v := by
    obtain ⟨k1, k2, k3, k4, k5, k6, k7, k8⟩ := canonical_ok 0 (-10) 20 (-10)
    have c1 : (canonical 0 (-10) 20 (-10)).y1 = -10 := by rw [canonical_y1, max_self, abs_neg, abs_of_pos (by norm_num)]
    have c2 : (canonical 0 (-10) 20 (-10)).y2 = -10 := by
      rcases k8 with ⟨-, h⟩ | ⟨h, -⟩ | ⟨-, h⟩ | ⟨h, -⟩
      · exact h
      · rw [c1] at h; linarith
      · exact h
      · rw [c1] at h; linarith
    rw [area_canon, c1, c2, k6, reduce_small (by norm_num) (by norm_num), abs_of_pos (by norm_num), sub_zero, hv, if_neg (by norm_num)]
    simp [Except.map]
  have hN : ellipsoidalArea root 6378137 6356752 tol 20 10 0 10 = .ok (-v) := by
    rw [area_back, ← area_south, hE]
    rfl
  have h0 : ∃ w, ellPolyArea root 6378137 6356752 tol (.mk [(0, 0), (20, 0), (20, 10), (0, 10)] []) = .ok w := by
    refine ⟨_, (poly_ok _ _ _ _ _ _ _).mpr ⟨_, 0, (sides_ok _ _ _ _ _ _).mpr ⟨?_, rfl⟩, rfl, rfl⟩⟩
    have hseg : ringSegs [(0, 0), (20, 0), (20, 10), (0, 10)] =
      [((0, 10), (0, 0)), ((0, 0), (20, 0)), ((20, 0), (20, 10)), ((20, 10), (0, 10))] := rfl
    rw [hseg]
    intro s hs
    simp only [List.mem_cons, List.not_mem_nil, or_false] at hs
    rcases hs with rfl | rfl | rfl | rfl
    · exact ⟨0, area_meridian_any (by norm_num) (by norm_num)⟩
    · exact ⟨0, area_equator_ok (by norm_num) (by norm_num)⟩
    · exact ⟨0, area_meridian_any (by norm_num) (by norm_num)⟩
    · exact ⟨-v, hN⟩
  obtain ⟨w, hw⟩ := h0
  exact ⟨tol, w, hw, (C150_direction root _ _ tol [(0, 0), (20, 0), (20, 10), (0, 10)] [] w).mpr hw,
    (C150_start root _ _ tol [(0, 0), (20, 0), (20, 10), (0, 10)] [] 2 w).mpr hw, (C150_shift root _ _ tol 30 _ w).mpr hw⟩

end Karta.Geod.Geodesic
