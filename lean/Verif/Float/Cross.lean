import Verif.Float.Area
import Verif.Vec.PlanarProps

/-!
Model of the planar intersection of segments (`/repo/karta/vector/intersection.pyx`, `vectorgeo.pyx`) with rounded arithmetic, and property
C156.
-/

namespace Karta.Float
open Karta Karta.Vec

variable (R : Rounding)

/-- `cross2` (vectorgeo.pyx 25-26) of vectors whose components have been computed.  Simplification: the compiler is assumed not to fuse
products and differences. -/
def cross2F (ux uy vx vy : ℚ) : ℚ := R.fl (R.fl (ux * vy) - R.fl (uy * vx))

/-- `cross2(Vector2(x1-x0, y1-y0), Vector2(x3-x2, y3-y2))` (intersection.pyx 531, 613-618). -/
def crossOfF (p0 p1 p2 p3 : Pt) : ℚ :=
  cross2F R (R.fl (p1.x - p0.x)) (R.fl (p1.y - p0.y)) (R.fl (p3.x - p2.x)) (R.fl (p3.y - p2.y))

/-- `intersection` (intersection.pyx 606-622); `none` is the returned pair of NaNs. -/
def intersectionF (s r : Seg) : Option Pt :=
  let rxs := crossOfF R s.a s.b r.a r.b
  if rxs = 0 then none
  else
    let t := R.fl (crossOfF R s.a r.a r.a r.b / rxs)
    let u := R.fl (crossOfF R s.a r.a s.a s.b / rxs)
    if (0 < t ∧ t ≤ 1) ∧ (0 < u ∧ u ≤ 1) then
      some ⟨R.fl (s.a.x + R.fl (t * R.fl (s.b.x - s.a.x))), R.fl (s.a.y + R.fl (t * R.fl (s.b.y - s.a.y)))⟩
    else none

/-- `all_intersections` (intersection.pyx 41-68). -/
def allIntersectionsF (ringA : Bool) (as : List Pt) (ringB : Bool) (bs : List Pt) : List Pt :=
  (segsOf ringA as).flatMap fun s => (segsOf ringB bs).filterMap fun r => intersectionF R s r

/-- `iscollinear` (intersection.pyx 529-540). -/
def iscollinearF (s r : Seg) : Bool :=
  let rxs := crossOfF R s.a s.b r.a r.b
  if rxs = 0 then
    let rxt := crossOfF R s.a s.b s.a r.b
    if rxt = 0 then
      if R.fl (s.b.x - s.a.x) ≠ 0 ∧ overlaps s.a.x s.b.x r.a.x r.b.x = true then true
      else if overlaps s.a.y s.b.y r.a.y r.b.y = true then true
      else false
    else false
  else false

/-- `_intersects` (intersection.pyx 500-513) for segments of different geometries. -/
def segIntersectsF (s r : Seg) : Bool :=
  if iscollinearF R s r then true
  else if (intersectionF R s r).isNone then false
  else true

/-! ### Specification -/

/-- The vector product of `p1 - p0` and `p3 - p2`. -/
def crossOf (p0 p1 p2 p3 : Pt) : ℚ := (p1.x - p0.x) * (p3.y - p2.y) - (p1.y - p0.y) * (p3.x - p2.x)

/-- The size of the two products of which it is the difference. -/
def sizeOf (p0 p1 p2 p3 : Pt) : ℚ := |p1.x - p0.x| * |p3.y - p2.y| + |p1.y - p0.y| * |p3.x - p2.x|

/-- The segments are far from being parallel, and no end of one is close to the line through the other, in comparison with rounding
errors. -/
structure Distinct (s r : Seg) : Prop where
  directions : growth 8 * sizeOf s.a s.b r.a r.b < |crossOf s.a s.b r.a r.b|
  startS : growth 8 * sizeOf s.a r.a r.a r.b < |crossOf s.a r.a r.a r.b|
  startR : growth 8 * sizeOf s.a r.a s.a s.b < |crossOf s.a r.a s.a s.b|
  endS : growth 8 * (sizeOf s.a r.a r.a r.b + sizeOf s.a s.b r.a r.b) < |crossOf s.a r.a r.a r.b - crossOf s.a s.b r.a r.b|
  endR : growth 8 * (sizeOf s.a r.a s.a s.b + sizeOf s.a s.b r.a r.b) < |crossOf s.a r.a s.a s.b - crossOf s.a s.b r.a r.b|

/-- All four coordinates of the segment are whole multiples of `2 ^ k`, at most `2 ^ 24` times. -/
def SegUnits (k : ℤ) (s : Seg) : Prop :=
  (InUnits k (2 ^ 24) s.a.x ∧ InUnits k (2 ^ 24) s.a.y) ∧ (InUnits k (2 ^ 24) s.b.x ∧ InUnits k (2 ^ 24) s.b.y)

/-! ### Helpers -/

variable {R}

theorem intersection_crossOf (s r : Seg) : intersection s r =
    if crossOf s.a s.b r.a r.b = 0 then none
    else if (0 < crossOf s.a r.a r.a r.b / crossOf s.a s.b r.a r.b ∧ crossOf s.a r.a r.a r.b / crossOf s.a s.b r.a r.b ≤ 1) ∧
        (0 < crossOf s.a r.a s.a s.b / crossOf s.a s.b r.a r.b ∧ crossOf s.a r.a s.a s.b / crossOf s.a s.b r.a r.b ≤ 1) then
      some ⟨s.a.x + crossOf s.a r.a r.a r.b / crossOf s.a s.b r.a r.b * (s.b.x - s.a.x),
        s.a.y + crossOf s.a r.a r.a r.b / crossOf s.a s.b r.a r.b * (s.b.y - s.a.y)⟩
    else none := rfl

theorem crossOfF_growth (p0 p1 p2 p3 : Pt) :
    |crossOfF R p0 p1 p2 p3 - crossOf p0 p1 p2 p3| ≤ growth 4 * sizeOf p0 p1 p2 p3 ∧
    |crossOf p0 p1 p2 p3| ≤ sizeOf p0 p1 p2 p3 := by
  obtain ⟨a1, a2⟩ := mul_growth (diff_growth (R := R) p1.x p0.x) le_rfl (diff_growth (R := R) p3.y p2.y) le_rfl
  obtain ⟨b1, b2⟩ := mul_growth (diff_growth (R := R) p1.y p0.y) le_rfl (diff_growth (R := R) p3.x p2.x) le_rfl
  have a3 := fl_growth (R := R) a1 a2
  have b3 := fl_growth (R := R) b1 b2
  obtain ⟨d1, d2⟩ := add_growth a3 a2 (neg_growth b3) (by rwa [abs_neg])
  have d3 := fl_growth (R := R) d1 d2
  unfold crossOfF cross2F crossOf sizeOf
  rw [sub_eq_add_neg (R.fl (R.fl (p1.x - p0.x) * R.fl (p3.y - p2.y))), sub_eq_add_neg ((p1.x - p0.x) * (p3.y - p2.y))]
  exact ⟨d3, d2⟩

/-- The test `0 < t <= 1` on a computed quotient, for a positive denominator. -/
theorem ratio_pos {T D TF DF sT sD : ℚ} (hD : 0 < D) (eT : |TF - T| ≤ growth 4 * sT) (eD : |DF - D| ≤ growth 4 * sD)
    (bD : |D| ≤ sD) (nT : 0 ≤ sT) (cD : growth 8 * sD < |D|) (cT : growth 8 * sT < |T|) (cE : growth 8 * (sT + sD) < |T - D|) :
    0 < DF ∧ ((0 < R.fl (TF / DF) ∧ R.fl (TF / DF) ≤ 1) ↔ (0 < T / D ∧ T / D ≤ 1)) := by
  rw [abs_of_pos hD] at cD bD
  have g4 : growth 4 = 4 / 2 ^ 53 + 6 / 2 ^ 106 + 4 / 2 ^ 159 + 1 / 2 ^ 212 := by unfold growth; norm_num
  have g8 : growth 4 + 3 / 2 ^ 53 ≤ growth 8 := by unfold growth; norm_num
  have g0 := growth_nonneg 4
  have nD : 0 ≤ sD := by linarith
  rw [abs_le] at eT eD
  have m1 : growth 4 * sD ≤ growth 8 * sD := mul_le_mul_of_nonneg_right (growth_mono (by norm_num)) nD
  have m2 : growth 4 * sT ≤ growth 8 * sT := mul_le_mul_of_nonneg_right (growth_mono (by norm_num)) nT
  have m3 : (growth 4 + 3 / 2 ^ 53) * (sT + sD) ≤ growth 8 * (sT + sD) := mul_le_mul_of_nonneg_right g8 (by linarith)
  have hDF : 0 < DF := by linarith [eD.1]
  refine ⟨hDF, ?_⟩
  have pos : ∀ x : ℚ, 0 < R.fl x ↔ 0 < x := fun x => ⟨fun hx => by
    by_contra hc
    exact absurd (R.nonpos (not_lt.1 hc)) (not_le.2 hx), R.pos⟩
  have hsign : 0 < TF ↔ 0 < T := by
    rcases abs_cases T with ⟨e, c⟩ | ⟨e, c⟩
    · rw [e] at cT
      have : 0 ≤ growth 8 * sT := mul_nonneg (growth_nonneg 8) nT
      exact ⟨fun _ => by linarith, fun _ => by linarith [eT.1]⟩
    · rw [e] at cT
      exact ⟨fun h => by linarith [eT.2], fun h => by linarith⟩
  have hDs : DF ≤ 3 / 2 * sD := by
    have : growth 4 * sD ≤ 1 / 2 * sD := mul_le_mul_of_nonneg_right (by rw [g4]; norm_num) nD
    linarith [eD.2]
  have hone : R.fl (TF / DF) ≤ 1 ↔ T ≤ D := by
    rcases abs_cases (T - D) with ⟨e, c⟩ | ⟨e, c⟩
    · rw [e] at cE
      have h1 : DF + 1 / 2 ^ 52 * DF ≤ TF := by
        have a : 1 / 2 ^ 52 * DF ≤ 3 / 2 ^ 53 * sD := by
          norm_num at hDs ⊢
          linarith
        have b : 0 ≤ 3 / 2 ^ 53 * sT := by positivity
        rw [add_mul, mul_add, mul_add] at m3
        linarith [eT.1, eD.2]
      have h2 : 1 + 1 / 2 ^ 52 ≤ TF / DF := by
        rw [le_div_iff₀ hDF]; linarith
      have h3 := R.mono h2
      have h4 : R.fl (1 + 1 / 2 ^ 52) = 1 + 1 / 2 ^ 52 := by
        have := R.exact (2 ^ 52 + 1) (-52) (by norm_num)
        rw [zpow_neg] at this
        norm_num at this ⊢
        exact this
      have p := mul_nonneg (growth_nonneg 8) (by linarith : 0 ≤ sT + sD)
      exact ⟨fun h => by rw [h4] at h3; norm_num at h3 h; linarith, fun h => by linarith⟩
    · rw [e] at cE
      have h1 : TF ≤ DF := by linarith [eT.2, eD.1]
      have h2 : TF / DF ≤ 1 := by rw [div_le_one hDF]; exact h1
      have h3 := R.mono h2
      have h4 : R.fl 1 = 1 := by have := R.int 1 (by norm_num); exact_mod_cast this
      rw [h4] at h3
      exact ⟨fun _ => by linarith, fun _ => h3⟩
  rw [pos, hone, div_pos_iff_of_pos_right hDF, div_pos_iff_of_pos_right hD, div_le_one hD, hsign]

theorem ratio_test {T D TF DF sT sD : ℚ} (eT : |TF - T| ≤ growth 4 * sT) (eD : |DF - D| ≤ growth 4 * sD)
    (bD : |D| ≤ sD) (nT : 0 ≤ sT) (cD : growth 8 * sD < |D|) (cT : growth 8 * sT < |T|) (cE : growth 8 * (sT + sD) < |T - D|) :
    DF ≠ 0 ∧ D ≠ 0 ∧ ((0 < R.fl (TF / DF) ∧ R.fl (TF / DF) ≤ 1) ↔ (0 < T / D ∧ T / D ≤ 1)) := by
  have nD : 0 ≤ growth 8 * sD := mul_nonneg (growth_nonneg 8) (le_trans (abs_nonneg _) bD)
  have hD : D ≠ 0 := abs_pos.1 (by linarith)
  rcases lt_or_gt_of_ne hD with h | h
  · have e1 : |-TF - -T| ≤ growth 4 * sT := neg_growth eT
    have e2 : |-DF - -D| ≤ growth 4 * sD := neg_growth eD
    have := ratio_pos (R := R) (T := -T) (D := -D) (by linarith) e1 e2 (by rwa [abs_neg]) nT (by rwa [abs_neg]) (by rwa [abs_neg])
      (by rwa [show -T - -D = -(T - D) by ring, abs_neg])
    rw [neg_div_neg_eq, neg_div_neg_eq] at this
    exact ⟨fun hc => by rw [hc] at this; simp at this, hD, this.2⟩
  · have := ratio_pos (R := R) h eT eD bD nT cD cT cE
    exact ⟨this.1.ne', hD, this.2⟩

theorem sizeOf_nonneg (p0 p1 p2 p3 : Pt) : 0 ≤ sizeOf p0 p1 p2 p3 := by unfold sizeOf; positivity

/-- In whole units the vector product is exact. -/
theorem crossOfF_units {k : ℤ} {p0 p1 p2 p3 : Pt} (h0 : InUnits k (2 ^ 24) p0.x ∧ InUnits k (2 ^ 24) p0.y)
    (h1 : InUnits k (2 ^ 24) p1.x ∧ InUnits k (2 ^ 24) p1.y) (h2 : InUnits k (2 ^ 24) p2.x ∧ InUnits k (2 ^ 24) p2.y)
    (h3 : InUnits k (2 ^ 24) p3.x ∧ InUnits k (2 ^ 24) p3.y) :
    crossOfF R p0 p1 p2 p3 = crossOf p0 p1 p2 p3 ∧ InUnits (k + k) (2 ^ 51) (crossOf p0 p1 p2 p3) := by
  have d1 := h1.1.sub h0.1
  have d2 := h1.2.sub h0.2
  have d3 := h3.1.sub h2.1
  have d4 := h3.2.sub h2.2
  have m1 := d1.mul d4
  have m2 := d2.mul d3
  have d := m1.sub m2
  refine ⟨?_, d.mono (by norm_num)⟩
  unfold crossOfF cross2F crossOf
  rw [d1.exact R (by norm_num), d2.exact R (by norm_num), d3.exact R (by norm_num), d4.exact R (by norm_num),
    m1.exact R (by norm_num), m2.exact R (by norm_num), d.exact R (by norm_num)]

/-- The test `0 < t <= 1` on the rounded quotient of two numbers in whole units. -/
theorem ratio_units {k : ℤ} {T D : ℚ} (hT : InUnits k (2 ^ 51) T) (hD : InUnits k (2 ^ 51) D) (h0 : D ≠ 0) :
    (0 < R.fl (T / D) ∧ R.fl (T / D) ≤ 1) ↔ (0 < T / D ∧ T / D ≤ 1) := by
  have pos : ∀ x : ℚ, 0 < R.fl x ↔ 0 < x := fun x => ⟨fun hx => by
    by_contra hc
    exact absurd (R.nonpos (not_lt.1 hc)) (not_le.2 hx), R.pos⟩
  rw [pos]
  have h1 : R.fl 1 = 1 := by have := R.int 1 (by norm_num); exact_mod_cast this
  have key : R.fl (T / D) ≤ 1 ↔ T / D ≤ 1 := by
    constructor
    · intro h
      by_contra hc
      have hc := not_le.1 hc
      obtain ⟨n, hn, rfl⟩ := hT
      obtain ⟨m, hm, rfl⟩ := hD
      have p := two_pow_pos k
      rw [mul_div_mul_right _ _ p.ne'] at hc h
      have hm0 : m ≠ 0 := by rintro rfl; exact h0 (by push_cast; ring)
      have hb : (0 : ℚ) < |(m : ℚ)| := abs_pos.2 (by exact_mod_cast hm0)
      have hle : 1 + 1 / 2 ^ 51 ≤ (n : ℚ) / m := by
        have e : (n : ℚ) / m - 1 = ((n - m : ℤ) : ℚ) / m := by
          push_cast
          rw [sub_div, div_self (by exact_mod_cast hm0)]
        have hne : n - m ≠ 0 := by
          intro h; rw [h] at e; simp at e; linarith
        have h1 : (1 : ℚ) ≤ |((n - m : ℤ) : ℚ)| := by exact_mod_cast Int.one_le_abs hne
        have h2 : |(m : ℚ)| ≤ 2 ^ 51 := by exact_mod_cast hm
        have h3 : 1 / 2 ^ 51 ≤ |(n : ℚ) / m - 1| := by
          rw [e, abs_div]
          exact div_le_div₀ (abs_nonneg _) h1 hb h2
        rw [abs_of_pos (by linarith)] at h3
        linarith
      have h3 := R.mono hle
      have h4 : R.fl (1 + 1 / 2 ^ 51) = 1 + 1 / 2 ^ 51 := by
        have := R.exact (2 ^ 51 + 1) (-51) (by norm_num)
        rw [zpow_neg] at this
        norm_num at this ⊢
        exact this
      rw [h4] at h3
      norm_num at h3 h
      linarith
    · intro h
      have := R.mono h
      rwa [h1] at this
  rw [key]

theorem pick_growth {t x0 x1 : ℚ} (h0 : 0 < t) (h1 : t ≤ 1) (hd : R.fl (x1 - x0) = x1 - x0) :
    |R.fl (x0 + R.fl (R.fl t * R.fl (x1 - x0))) - (x0 + t * (x1 - x0))| ≤ growth 3 * (|x0| + |x1 - x0|) := by
  rw [hd]
  have ht : |R.fl t - t| ≤ growth 1 * 1 := fl_growth (exact_growth (M := 1)) (by rw [abs_of_pos h0]; exact h1)
  obtain ⟨m1, m2⟩ := mul_growth ht (by rw [abs_of_pos h0]; exact h1) (exact_growth (x := x1 - x0) (M := |x1 - x0|)) le_rfl
  have m3 := fl_growth (R := R) m1 m2
  obtain ⟨s1, s2⟩ := add_growth (exact_growth (x := x0) (M := |x0|)) le_rfl m3 m2
  have := fl_growth (R := R) s1 s2
  rwa [one_mul] at this

theorem pick_between {k : ℤ} {t x0 x1 : ℚ} (h0 : 0 < R.fl t) (h1 : R.fl t ≤ 1) (i0 : InUnits k (2 ^ 24) x0)
    (i1 : InUnits k (2 ^ 24) x1) :
    min x0 x1 ≤ R.fl (x0 + R.fl (R.fl t * R.fl (x1 - x0))) ∧ R.fl (x0 + R.fl (R.fl t * R.fl (x1 - x0))) ≤ max x0 x1 := by
  have d := i1.sub i0
  have e := d.exact R (by norm_num)
  have e0 := i0.exact R (by norm_num)
  have e1 := i1.exact R (by norm_num)
  rw [e]
  rcases le_total x0 x1 with h | h
  · rw [min_eq_left h, max_eq_right h]
    have a : 0 ≤ R.fl (R.fl t * (x1 - x0)) := R.nonneg (mul_nonneg h0.le (by linarith))
    have b : R.fl (R.fl t * (x1 - x0)) ≤ x1 - x0 := by
      have := R.mono (show R.fl t * (x1 - x0) ≤ x1 - x0 from mul_le_of_le_one_left (by linarith) h1)
      rwa [e] at this
    have c := R.mono (show x0 ≤ x0 + R.fl (R.fl t * (x1 - x0)) by linarith)
    have c' := R.mono (show x0 + R.fl (R.fl t * (x1 - x0)) ≤ x1 by linarith)
    rw [e0] at c
    rw [e1] at c'
    exact ⟨c, c'⟩
  · rw [min_eq_right h, max_eq_left h]
    have a : R.fl (R.fl t * (x1 - x0)) ≤ 0 := R.nonpos (mul_nonpos_of_nonneg_of_nonpos h0.le (by linarith))
    have b : x1 - x0 ≤ R.fl (R.fl t * (x1 - x0)) := by
      have := R.mono (show x1 - x0 ≤ R.fl t * (x1 - x0) by nlinarith)
      rwa [e] at this
    have c := R.mono (show x0 + R.fl (R.fl t * (x1 - x0)) ≤ x0 by linarith)
    have c' := R.mono (show x1 ≤ x0 + R.fl (R.fl t * (x1 - x0)) by linarith)
    rw [e0] at c
    rw [e1] at c'
    exact ⟨c', c⟩

/-! ### C156 -/

/-- C156, segments that are clearly apart or clearly cross: `intersection` finds a point exactly if the segments share one, for any
coordinates.

Missing for the full claim: segments of which an end is very close to the other, for which it fails (below). -/
theorem C156_clear_partial (R : Rounding) (s r : Seg) (h : Distinct s r) :
    (intersectionF R s r).isSome = true ↔ ∃ p, s.On p ∧ r.On p := by
  obtain ⟨eD, bD⟩ := crossOfF_growth (R := R) s.a s.b r.a r.b
  obtain ⟨eT, _⟩ := crossOfF_growth (R := R) s.a r.a r.a r.b
  obtain ⟨eU, _⟩ := crossOfF_growth (R := R) s.a r.a s.a s.b
  obtain ⟨n1, n2, t⟩ := ratio_test (R := R) eT eD bD (sizeOf_nonneg _ _ _ _) h.directions h.startS h.endS
  obtain ⟨_, _, u⟩ := ratio_test (R := R) eU eD bD (sizeOf_nonneg _ _ _ _) h.directions h.startR h.endR
  have key : (intersectionF R s r).isSome = (intersection s r).isSome := by
    rw [intersection_crossOf]
    unfold intersectionF
    dsimp only
    rw [if_neg n1, if_neg n2]
    simp only [t, u]
    by_cases c : (0 < crossOf s.a r.a r.a r.b / crossOf s.a s.b r.a r.b ∧ crossOf s.a r.a r.a r.b / crossOf s.a s.b r.a r.b ≤ 1) ∧
        (0 < crossOf s.a r.a s.a s.b / crossOf s.a s.b r.a r.b ∧ crossOf s.a r.a s.a s.b / crossOf s.a s.b r.a r.b ≤ 1)
    · rw [if_pos c, if_pos c]; rfl
    · rw [if_neg c, if_neg c]
  rw [key, Option.isSome_iff_exists]
  have hnp : ¬ s.Parallel r := fun hp => n2 (by unfold crossOf; rw [hp]; ring)
  have zero : ∀ x y : ℚ, x = 0 → 0 ≤ y → ¬ growth 8 * y < |x| := by
    rintro x y rfl hy hc
    rw [abs_zero] at hc
    exact absurd (mul_nonneg (growth_nonneg 8) hy) (not_le.2 hc)
  constructor
  · rintro ⟨p, hp⟩
    obtain ⟨_, h1, h2, _⟩ := (C34_intersection_exact s r p).1 hp
    exact ⟨p, h1, h2⟩
  · rintro ⟨p, h1, h2⟩
    refine ⟨p, (C34_intersection_exact s r p).2 ⟨hnp, h1, h2, ?_, ?_⟩⟩
    · rintro rfl
      obtain ⟨v, _, _, ex, ey⟩ := h2
      refine zero _ _ ?_ (sizeOf_nonneg _ _ _ _) h.startS
      unfold crossOf; rw [ex, ey]; ring
    · rintro rfl
      obtain ⟨v, _, _, ex, ey⟩ := h1
      refine zero _ _ ?_ (sizeOf_nonneg _ _ _ _) h.startR
      unfold crossOf; rw [ex, ey]; ring

/-- C156, whole units: if the coordinates of both segments are whole multiples of a power of two, at most `2 ^ 24` times, then
`intersection` finds a point exactly when there is one, apart from the starts of the segments (C34); it is within three roundings of the
exact point and within the bounding box of the first segment. -/
theorem C156_units_partial (R : Rounding) {k : ℤ} (s r : Seg) (hs : SegUnits k s) (hr : SegUnits k r) :
    ((intersectionF R s r).isSome = true ↔ ∃ p, ¬ s.Parallel r ∧ s.On p ∧ r.On p ∧ p ≠ s.a ∧ p ≠ r.a) ∧
    ∀ p, intersectionF R s r = some p →
      (∃ c, s.On c ∧ r.On c ∧ |p.x - c.x| ≤ growth 3 * (|s.a.x| + |s.b.x - s.a.x|) ∧
        |p.y - c.y| ≤ growth 3 * (|s.a.y| + |s.b.y - s.a.y|)) ∧
      min s.a.x s.b.x ≤ p.x ∧ p.x ≤ max s.a.x s.b.x ∧ min s.a.y s.b.y ≤ p.y ∧ p.y ≤ max s.a.y s.b.y := by
  obtain ⟨d1, d2⟩ := crossOfF_units (R := R) hs.1 hs.2 hr.1 hr.2
  obtain ⟨t1, t2⟩ := crossOfF_units (R := R) hs.1 hr.1 hr.1 hr.2
  obtain ⟨u1, u2⟩ := crossOfF_units (R := R) hs.1 hr.1 hs.1 hs.2
  have ex := (hs.2.1.sub hs.1.1).exact R (by norm_num)
  have ey := (hs.2.2.sub hs.1.2).exact R (by norm_num)
  by_cases c0 : crossOf s.a s.b r.a r.b = 0
  · have hF : intersectionF R s r = none := by
      unfold intersectionF; dsimp only; rw [d1, if_pos c0]
    have hp : s.Parallel r := by unfold crossOf at c0; unfold Seg.Parallel; linarith
    rw [hF]
    exact ⟨⟨fun h => by simp at h, fun ⟨_, h, _⟩ => absurd hp h⟩, fun p h => by simp at h⟩
  have rt := ratio_units (R := R) t2 d2 c0
  have ru := ratio_units (R := R) u2 d2 c0
  have he : intersection s r = _ := intersection_crossOf s r
  have hF : intersectionF R s r = if crossOfF R s.a s.b r.a r.b = 0 then none
      else if (0 < R.fl (crossOfF R s.a r.a r.a r.b / crossOfF R s.a s.b r.a r.b) ∧
          R.fl (crossOfF R s.a r.a r.a r.b / crossOfF R s.a s.b r.a r.b) ≤ 1) ∧
          (0 < R.fl (crossOfF R s.a r.a s.a s.b / crossOfF R s.a s.b r.a r.b) ∧
          R.fl (crossOfF R s.a r.a s.a s.b / crossOfF R s.a s.b r.a r.b) ≤ 1) then
        some ⟨R.fl (s.a.x + R.fl (R.fl (crossOfF R s.a r.a r.a r.b / crossOfF R s.a s.b r.a r.b) * R.fl (s.b.x - s.a.x))),
          R.fl (s.a.y + R.fl (R.fl (crossOfF R s.a r.a r.a r.b / crossOfF R s.a s.b r.a r.b) * R.fl (s.b.y - s.a.y)))⟩
      else none := rfl
  rw [if_neg c0] at he
  rw [d1, if_neg c0, t1, u1] at hF
  by_cases c : (0 < crossOf s.a r.a r.a r.b / crossOf s.a s.b r.a r.b ∧ crossOf s.a r.a r.a r.b / crossOf s.a s.b r.a r.b ≤ 1) ∧
      (0 < crossOf s.a r.a s.a s.b / crossOf s.a s.b r.a r.b ∧ crossOf s.a r.a s.a s.b / crossOf s.a s.b r.a r.b ≤ 1)
  · rw [if_pos c] at he
    rw [if_pos ⟨rt.2 c.1, ru.2 c.2⟩] at hF
    obtain ⟨q1, q2, q3, q4⟩ := (C34_intersection_exact s r _).1 he
    refine ⟨⟨fun _ => ⟨_, q1, q2, q3, q4⟩, fun _ => by rw [hF]; rfl⟩, fun p hp => ?_⟩
    rw [hF] at hp
    obtain rfl := (Option.some.inj hp).symm
    have bx := pick_between (rt.2 c.1).1 (rt.2 c.1).2 hs.1.1 hs.2.1
    have bY := pick_between (rt.2 c.1).1 (rt.2 c.1).2 hs.1.2 hs.2.2
    exact ⟨⟨_, q2, q3, pick_growth c.1.1 c.1.2 ex, pick_growth c.1.1 c.1.2 ey⟩, bx.1, bx.2, bY.1, bY.2⟩
  · rw [if_neg c] at he
    rw [if_neg fun h => c ⟨rt.1 h.1, ru.1 h.2⟩] at hF
    rw [hF]
    refine ⟨⟨fun h => by simp at h, fun ⟨p, h⟩ => ?_⟩, fun p h => by simp at h⟩
    have := (C34_intersection_exact s r p).2 h
    rw [he] at this
    cases this

/-- C156, whole units: the test of a pair of segments within `intersects` gives the same answer as without rounding. -/
theorem C156_test_units_partial (R : Rounding) {k : ℤ} (s r : Seg) (hs : SegUnits k s) (hr : SegUnits k r) :
    segIntersectsF R s r = segIntersects s r := by
  obtain ⟨d1, _⟩ := crossOfF_units (R := R) hs.1 hs.2 hr.1 hr.2
  obtain ⟨t1, _⟩ := crossOfF_units (R := R) hs.1 hs.2 hs.1 hr.2
  have hc : iscollinearF R s r = iscollinear s r := by
    unfold iscollinearF iscollinear
    dsimp only
    rw [d1, t1, (hs.2.1.sub hs.1.1).exact R (by norm_num)]
    rfl
  have hi : (intersectionF R s r).isSome = (intersection s r).isSome := by
    rw [Bool.eq_iff_iff, (C156_units_partial R s r hs hr).1, Option.isSome_iff_exists]
    exact ⟨fun ⟨p, h⟩ => ⟨p, (C34_intersection_exact s r p).2 h⟩, fun ⟨p, h⟩ => ⟨p, (C34_intersection_exact s r p).1 h⟩⟩
  unfold segIntersectsF segIntersects
  rw [hc, ← Option.not_isSome, ← Option.not_isSome, hi]

theorem seg_units {k : ℤ} {ring : Bool} {ps : List Pt} (h : ∀ v ∈ ps, InUnits k (2 ^ 24) v.x ∧ InUnits k (2 ^ 24) v.y) {s : Seg}
    (hs : s ∈ segsOf ring ps) : SegUnits k s := by
  have : s.a ∈ ps ∧ s.b ∈ ps := by
    rcases (mem_segsOf ring ps s).1 hs with ⟨i, h1, h2⟩ | ⟨_, h1, h2⟩
    · exact ⟨List.mem_of_getElem? h1, List.mem_of_getElem? h2⟩
    · exact ⟨List.mem_of_getLast? h1, List.mem_of_head? h2⟩
  exact ⟨h _ this.1, h _ this.2⟩

/-- C156, whole units: two lines or polygons have as many intersections as without rounding, one for each pair of segments that has one. -/
theorem C156_count_units_partial (R : Rounding) {k : ℤ} (ra : Bool) (as : List Pt) (rb : Bool) (bs : List Pt)
    (ha : ∀ v ∈ as, InUnits k (2 ^ 24) v.x ∧ InUnits k (2 ^ 24) v.y) (hb : ∀ v ∈ bs, InUnits k (2 ^ 24) v.x ∧ InUnits k (2 ^ 24) v.y) :
    (allIntersectionsF R ra as rb bs).length = (allIntersections ra as rb bs).length := by
  unfold allIntersectionsF allIntersections
  rw [List.length_flatMap, List.length_flatMap]
  congr 1
  refine List.map_congr_left fun s hs => ?_
  have : ∀ l : List Seg, (∀ r ∈ l, SegUnits k r) →
      (l.filterMap fun r => intersectionF R s r).length = (l.filterMap fun r => intersection s r).length := by
    intro l
    induction l with
    | nil => intro _; rfl
    | cons r l ih =>
      intro hl
      have hi : (intersectionF R s r).isSome = true ↔ (intersection s r).isSome = true := by
        rw [(C156_units_partial R s r (seg_units ha hs) (hl r (by simp))).1, Option.isSome_iff_exists]
        exact ⟨fun ⟨p, h⟩ => ⟨p, (C34_intersection_exact s r p).2 h⟩, fun ⟨p, h⟩ => ⟨p, (C34_intersection_exact s r p).1 h⟩⟩
      have ih := ih fun r hr => hl r (List.mem_cons_of_mem _ hr)
      cases h1 : intersectionF R s r with
      | none =>
        cases h2 : intersection s r with
        | none => rw [List.filterMap_cons_none h1, List.filterMap_cons_none h2, ih]
        | some q => rw [h1, h2] at hi; simp at hi
      | some p =>
        cases h2 : intersection s r with
        | none => rw [h1, h2] at hi; simp at hi
        | some q => rw [List.filterMap_cons_some h1, List.filterMap_cons_some h2, List.length_cons, List.length_cons, ih]
  exact this _ fun r hr => seg_units hb hr

/-- The path with corners `(0, 0.9)`, `(0.6, 0.6)` and `(0.5, 0)`. -/
def corner : List Pt := [⟨0, rnd 0.9⟩, ⟨rnd 0.6, rnd 0.6⟩, ⟨1 / 2, 0⟩]

/-- The line from `(0.3, 0.3)` to `(0.9, 0.9)`. -/
def diagonal : List Pt := [⟨rnd 0.3, rnd 0.3⟩, ⟨rnd 0.9, rnd 0.9⟩]

/-- C156 is violated: a path and a line cross in a corner of the path, inside the line, but no intersection is found; without rounding it
is found. -/
theorem C156_violated_missed : allIntersectionsF double false corner false diagonal = [] ∧
    allIntersections false corner false diagonal = [⟨rnd 0.6, rnd 0.6⟩] := by
  decide +kernel

/-- C156 is violated: the intersection of a segment with a horizontal one is not on the horizontal segment, and it is on it when the
segments are given in the other order. -/
theorem C156_violated_order :
    let s : Seg := ⟨⟨rnd 0.4, rnd 0.9⟩, ⟨1 / 2, rnd 0.3⟩⟩
    let r : Seg := ⟨⟨rnd 0.4, rnd 0.4⟩, ⟨rnd 0.7, rnd 0.4⟩⟩
    (∃ p, intersectionF double s r = some p ∧ rnd 0.4 < p.y) ∧ ∃ p, intersectionF double r s = some p ∧ p.y = rnd 0.4 := by
  refine ⟨⟨(intersectionF double ⟨⟨rnd 0.4, rnd 0.9⟩, ⟨1 / 2, rnd 0.3⟩⟩ ⟨⟨rnd 0.4, rnd 0.4⟩, ⟨rnd 0.7, rnd 0.4⟩⟩).getD ⟨0, 0⟩,
    by decide +kernel⟩, (intersectionF double ⟨⟨rnd 0.4, rnd 0.4⟩, ⟨rnd 0.7, rnd 0.4⟩⟩ ⟨⟨rnd 0.4, rnd 0.9⟩, ⟨1 / 2, rnd 0.3⟩⟩).getD ⟨0, 0⟩,
    by decide +kernel⟩

example : Distinct ⟨⟨0, rnd 0.1⟩, ⟨1, rnd 0.9⟩⟩ ⟨⟨rnd 0.3, 1⟩, ⟨rnd 0.4, -1⟩⟩ := by
  constructor <;> decide +kernel

example : SegUnits (-1) ⟨⟨0, 1 / 2⟩, ⟨3, 5⟩⟩ := by
  refine ⟨⟨⟨0, ?_, ?_⟩, ⟨1, ?_, ?_⟩⟩, ⟨⟨6, ?_, ?_⟩, ⟨10, ?_, ?_⟩⟩⟩ <;> norm_num

example : (intersectionF double ⟨⟨0, 0⟩, ⟨3, 3⟩⟩ ⟨⟨0, 1⟩, ⟨1, 0⟩⟩).isSome = true := by decide +kernel

end Karta.Float
