import Verif.Float.Units
import Verif.Geod.AngleProps

/-!
Model of the reduction of angles and of the longitudes of bounding boxes with rounded arithmetic, and properties C148 and C149.
-/

namespace Karta.Float
open Karta Karta.Geod

variable (R : Rounding)

/-- C `fmod(x, m)` for a positive `m`: the remainder with the sign of `x`, which is computed exactly. -/
def fmod (x m : ℚ) : ℚ := if 0 ≤ x then x - m * (⌊x / m⌋ : ℤ) else x - m * (⌈x / m⌉ : ℤ)

/-- `x % m` of Python, numpy and Cython for doubles and a positive `m`: `fmod`, and `m` is added to a negative remainder. -/
def pyModF (x m : ℚ) : ℚ := if fmod x m < 0 then R.fl (fmod x m + m) else fmod x m

/-- `unroll_deg` (geodesy.py 62-64). -/
def unrollDegF (d : ℚ) : ℚ := pyModF R d 360

/-- `reduce_deg` (geodesy.py 66-68), and the same expression in crs.py 235-242, 287-294, geometry.py 172, dateline.pyx 59-60. -/
def reduceDegF (d : ℚ) : ℚ := R.fl (pyModF R (R.fl (d + 180)) 360 - 180)

/-- `crosses_dateline` (dateline.pyx 5-17). -/
def crossesDatelineF (x0 x1 : ℚ) : Int :=
  if fsign x0 ≠ fsign x1 ∧ 180 < |R.fl (x0 - x1)| then (if 180 < R.fl (x1 - x0) then 1 else -1) else 0

/-- Loop body of `bbox`, longitudes (dateline.pyx 40, 46-56).  The product of the sign and 360 is exact. -/
def lonStepF (s : LonBox) (x1 : ℚ) : LonBox :=
  if crossesDatelineF R s.x0 x1 ≠ 0 then
    let rot := R.fl (s.rot - (crossesDatelineF R s.x0 x1 : ℚ) * 360)
    ⟨min s.xmin (R.fl (x1 + rot)), max s.xmax (R.fl (x1 + rot)), rot, x1⟩
  else if s.x0 > x1 then ⟨min s.xmin x1, s.xmax, s.rot, x1⟩
  else ⟨s.xmin, max s.xmax x1, s.rot, x1⟩

/-- `bbox`, longitudes (dateline.pyx 19-62): western and eastern limit; `none` stands for NaN. -/
def lonBboxF (ring : Bool) (xs : List ℚ) : Option (ℚ × ℚ) :=
  match xs with
  | [] => none
  | x :: _ =>
    let s := (if ring then xs ++ [x] else xs).foldl (lonStepF R) ⟨x, x, 0, x⟩
    some (reduceDegF R s.xmin, reduceDegF R s.xmax)

variable {R}

/-! ### Helpers -/

theorem pyModF_eq (x : ℚ) : pyModF R x 360 = if 0 ≤ x then pyMod x 360 else R.fl (pyMod x 360) := by
  have hr := pyMod_range x
  unfold pyModF
  by_cases h : 0 ≤ x
  · have e : fmod x 360 = pyMod x 360 := by unfold fmod pyMod; rw [if_pos h]
    rw [if_pos h, e, if_neg (not_lt.2 hr.1)]
  · rw [if_neg h]
    have e : fmod x 360 = x - 360 * (⌈x / 360⌉ : ℤ) := by unfold fmod; rw [if_neg h]
    rw [e]
    by_cases hi : (⌈x / 360⌉ : ℚ) = x / 360
    · have hf : ((⌊x / 360⌋ : ℤ) : ℚ) = x / 360 := by
        rw [← hi, Int.floor_intCast]
      have z : pyMod x 360 = 0 := by unfold pyMod; rw [hf]; ring
      rw [z, R.zero, hi, if_neg (by linarith)]
      ring
    · have h1 : ⌈x / 360⌉ = ⌊x / 360⌋ + 1 := by
        have a1 := Int.ceil_le_floor_add_one (x / 360)
        have a2 : ⌊x / 360⌋ < ⌈x / 360⌉ := by
          by_contra hc
          apply hi
          have b1 := Int.le_ceil (x / 360)
          have b2 := Int.floor_le (x / 360)
          have b3 : ((⌈x / 360⌉ : ℤ) : ℚ) ≤ ⌊x / 360⌋ := by exact_mod_cast not_lt.1 hc
          linarith
        omega
      have e2 : x - 360 * ((⌈x / 360⌉ : ℤ) : ℚ) = pyMod x 360 - 360 := by
        unfold pyMod
        rw [h1]
        push_cast
        ring
      rw [e2, if_pos (by linarith)]
      congr 1
      ring

theorem fl_int (n : ℤ) (h : |n| ≤ 2 ^ 53) : R.fl (n : ℚ) = n := R.int n h

theorem pyModF_range (x : ℚ) : 0 ≤ pyModF R x 360 ∧ pyModF R x 360 ≤ 360 := by
  rw [pyModF_eq]
  have hr := pyMod_range x
  by_cases h : 0 ≤ x
  · rw [if_pos h]; exact ⟨hr.1, hr.2.le⟩
  · rw [if_neg h]
    refine ⟨R.nonneg hr.1, ?_⟩
    have := R.mono hr.2.le
    have e : R.fl 360 = 360 := by exact_mod_cast fl_int (R := R) 360 (by norm_num)
    rwa [e] at this

theorem pyModF_err (x : ℚ) : |pyModF R x 360 - pyMod x 360| ≤ 1 / 2 ^ 53 * 360 := by
  rw [pyModF_eq]
  have hr := pyMod_range x
  by_cases h : 0 ≤ x
  · rw [if_pos h, sub_self, abs_zero]; norm_num
  · rw [if_neg h]
    refine (R.err _).trans (mul_le_mul_of_nonneg_left ?_ (by norm_num))
    rw [abs_of_nonneg hr.1]
    exact hr.2.le

/-! ### C148 -/

/-- C148, in general: the reduced angle is from -180 to 180, the unrolled one from 0 to 360, both ends included, and both differ from an
angle of the same direction by a few rounding errors only.

Missing for the full claim: that the upper ends are never reached, which fails (below). -/
theorem C148_close_partial (R : Rounding) (x : ℚ) :
    (-180 ≤ reduceDegF R x ∧ reduceDegF R x ≤ 180 ∧
      ∃ y, Congruent y x ∧ |reduceDegF R x - y| ≤ 1 / 2 ^ 53 * (|x + 180| + 540)) ∧
    (0 ≤ unrollDegF R x ∧ unrollDegF R x ≤ 360 ∧ ∃ y, Congruent y x ∧ |unrollDegF R x - y| ≤ 1 / 2 ^ 53 * 360) := by
  constructor
  · have hm := pyModF_range (R := R) (R.fl (x + 180))
    have e1 : R.fl 180 = 180 := by exact_mod_cast fl_int (R := R) 180 (by norm_num)
    have e2 : R.fl (-180) = -180 := by exact_mod_cast fl_int (R := R) (-180) (by norm_num)
    refine ⟨?_, ?_, ?_⟩
    · have := R.mono (show (-180 : ℚ) ≤ pyModF R (R.fl (x + 180)) 360 - 180 by linarith)
      rwa [e2] at this
    · have := R.mono (show pyModF R (R.fl (x + 180)) 360 - 180 ≤ (180 : ℚ) by linarith)
      rwa [e1] at this
    · have a1 := R.err (x + 180)
      have a2 := pyModF_err (R := R) (R.fl (x + 180))
      have a3 := R.err (pyModF R (R.fl (x + 180)) 360 - 180)
      have a4 : |pyModF R (R.fl (x + 180)) 360 - 180| ≤ 180 := by rw [abs_le]; constructor <;> linarith [hm.1, hm.2]
      have a5 := mul_le_mul_of_nonneg_left a4 (show (0 : ℚ) ≤ 1 / 2 ^ 53 by norm_num)
      obtain ⟨k, hk⟩ := pyMod_congr (R.fl (x + 180))
      refine ⟨x + 360 * k, ⟨k, rfl⟩, ?_⟩
      unfold reduceDegF
      rw [hk] at a2
      generalize pyModF R (R.fl (x + 180)) 360 = m at *
      have t := a3.trans a5
      rw [mul_add]
      generalize 1 / 2 ^ 53 * |x + 180| = w at *
      norm_num at *
      rw [abs_le] at *
      constructor <;> linarith [a1.1, a1.2, a2.1, a2.2, t.1, t.2]
  · have hm := pyModF_range (R := R) x
    exact ⟨hm.1, hm.2, pyMod x 360, pyMod_congr x, pyModF_err x⟩

/-- Three hundred and sixty, a hundred and eighty in small units. -/
theorem angle_units {k : ℤ} (h0 : -44 ≤ k) (h1 : k ≤ 2) : InUnits k (2 ^ 52) 180 ∧ InUnits k (2 ^ 53) 360 := by
  obtain ⟨n, rfl⟩ : ∃ n : ℕ, k = 2 - n := ⟨(2 - k).toNat, by omega⟩
  have hn : n ≤ 46 := by omega
  have hp : (2 : ℤ) ^ n ≤ 2 ^ 46 := pow_le_pow_right₀ (by norm_num) hn
  have hpos : (0 : ℤ) < 2 ^ n := by positivity
  have hz : (2 : ℚ) ^ ((2 : ℤ) - n) = 4 / 2 ^ n := by
    rw [zpow_sub₀ (by norm_num), zpow_natCast]; norm_num
  have h2 : ((2 : ℚ) ^ n) ≠ 0 := by positivity
  refine ⟨⟨45 * 2 ^ n, ?_, ?_⟩, ⟨90 * 2 ^ n, ?_, ?_⟩⟩
  · rw [abs_of_pos (by positivity)]; norm_num at hp ⊢; linarith
  · rw [hz]; push_cast; field_simp; norm_num
  · rw [abs_of_pos (by positivity)]; norm_num at hp ⊢; linarith
  · rw [hz]; push_cast; field_simp; norm_num

theorem pyMod_units {k B : ℤ} (h0 : -44 ≤ k) (h1 : k ≤ 2) {x : ℚ} (hx : InUnits k B x) : InUnits k (2 ^ 53) (pyMod x 360) := by
  obtain ⟨n, _, e⟩ := hx
  obtain ⟨m, hm, e'⟩ := (angle_units h0 h1).2
  have hr := pyMod_range x
  have hp := two_pow_pos k
  have hmpos : 0 < m := by
    have : (0 : ℚ) < m * 2 ^ k := by rw [← e']; norm_num
    exact_mod_cast (mul_pos_iff_of_pos_right hp).1 this
  have ex : pyMod x 360 = ((n - m * ⌊x / 360⌋ : ℤ) : ℚ) * 2 ^ k := by
    unfold pyMod
    push_cast
    rw [sub_mul, ← e]
    linear_combination -((⌊x / 360⌋ : ℤ) : ℚ) * e'
  refine ⟨n - m * ⌊x / 360⌋, ?_, ex⟩
  rw [ex] at hr
  have r1 : (0 : ℤ) ≤ n - m * ⌊x / 360⌋ := by
    exact_mod_cast nonneg_of_mul_nonneg_left hr.1 hp
  have r2 : n - m * ⌊x / 360⌋ < m := by
    have := lt_of_lt_of_eq hr.2 e'
    exact_mod_cast lt_of_mul_lt_mul_right this hp.le
  rw [abs_of_nonneg r1]
  have := le_abs_self m
  omega

theorem unrollDegF_units {k : ℤ} (h0 : -44 ≤ k) (h1 : k ≤ 2) {B : ℤ} {x : ℚ} (hx : InUnits k B x) :
    pyModF R x 360 = pyMod x 360 := by
  rw [pyModF_eq]
  by_cases h : 0 ≤ x
  · rw [if_pos h]
  · rw [if_neg h, (pyMod_units h0 h1 hx).exact R (by norm_num)]

theorem reduceDegF_units {k : ℤ} (h0 : -44 ≤ k) (h1 : k ≤ 2) {x : ℚ} (hx : InUnits k (2 ^ 52) x) : reduceDegF R x = reduceDeg x := by
  have hu := (angle_units h0 h1).1
  have hs := hx.add hu
  unfold reduceDegF reduceDeg
  rw [hs.exact R (by norm_num), unrollDegF_units h0 h1 hs]
  have hr := pyMod_range (x + 180)
  obtain ⟨n, _, e⟩ := (pyMod_units h0 h1 hs).sub hu
  obtain ⟨m, hm, e'⟩ := hu
  have hp := two_pow_pos k
  refine InUnits.exact (k := k) (B := 2 ^ 52) R ⟨n, ?_, e⟩ (by norm_num)
  have hmpos : 0 < m := by
    have : (0 : ℚ) < m * 2 ^ k := by rw [← e']; norm_num
    exact_mod_cast (mul_pos_iff_of_pos_right hp).1 this
  rw [abs_of_pos hmpos] at hm
  have b1 : -m ≤ n := by
    have : (-(m : ℚ)) * 2 ^ k ≤ n * 2 ^ k := by rw [← e, neg_mul, ← e']; linarith
    exact_mod_cast le_of_mul_le_mul_right this hp
  have b2 : n ≤ m := by
    have : (n : ℚ) * 2 ^ k ≤ m * 2 ^ k := by rw [← e, ← e']; linarith
    exact_mod_cast le_of_mul_le_mul_right this hp
  rw [abs_le]
  omega

/-- C148, whole units: for angles that are whole multiples of a power of two of degrees (from 2^-44 to 4), at most `2 ^ 52` times, both
functions are exact: they give the only angle of the same direction from -180 to below 180, and from 0 to below 360. -/
theorem C148_units_partial (R : Rounding) {k : ℤ} (h0 : -44 ≤ k) (h1 : k ≤ 2) {x : ℚ} (hx : InUnits k (2 ^ 52) x) :
    (-180 ≤ reduceDegF R x ∧ reduceDegF R x < 180 ∧ Congruent (reduceDegF R x) x) ∧
    (0 ≤ unrollDegF R x ∧ unrollDegF R x < 360 ∧ Congruent (unrollDegF R x) x) := by
  unfold unrollDegF
  rw [reduceDegF_units h0 h1 hx, unrollDegF_units h0 h1 hx]
  exact ⟨⟨(reduce_range x).1, (reduce_range x).2, reduce_congr x⟩, ⟨(unroll_range x).1, (unroll_range x).2, unroll_congr x⟩⟩

example : reduceDegF double (-541 / 2) = 179 / 2 ∧ InUnits (-1) (2 ^ 52) (-541 / 2) :=
  ⟨by decide +kernel, -541, by norm_num, by norm_num⟩

/-- The double just below -180. -/
def west180 : ℚ := -180 - 1 / 2 ^ 45

/-- C148 is violated: the double just below -180 is reduced to 180, which is not below 180; reducing once more gives -180. -/
theorem C148_violated_180 : rnd west180 = west180 ∧ reduceDegF double west180 = 180 ∧ reduceDegF double 180 = -180 := by decide +kernel

/-- C148 is violated: the double just below 180 is reduced to -180, the other end of the range. -/
theorem C148_violated_opposite : rnd (180 - 1 / 2 ^ 45) = 180 - 1 / 2 ^ 45 ∧ reduceDegF double (180 - 1 / 2 ^ 45) = -180 := by decide +kernel

/-- C148 is violated: small negative angles are unrolled to 360, which is not below 360. -/
theorem C148_violated_360 : unrollDegF double (-(1 / 2 ^ 60)) = 360 := by decide +kernel

/-! ### C149 -/

theorem crossesF_zero {a b : ℚ} (h : crossesDateline a b = 0) : crossesDatelineF R a b = 0 := by
  unfold crossesDateline at h
  unfold crossesDatelineF
  by_cases c : fsign a ≠ fsign b ∧ 180 < |a - b|
  · rw [if_pos c] at h
    by_cases d : 180 < b - a
    · rw [if_pos d] at h; exact absurd h (by norm_num)
    · rw [if_neg d] at h; exact absurd h (by norm_num)
  · rw [if_neg]
    rintro ⟨c1, c2⟩
    have : |a - b| ≤ 180 := by
      by_contra hc
      exact c ⟨c1, not_le.1 hc⟩
    rw [abs_le] at this
    have e1 : R.fl 180 = 180 := by exact_mod_cast fl_int (R := R) 180 (by norm_num)
    have e2 : R.fl (-180) = -180 := by exact_mod_cast fl_int (R := R) (-180) (by norm_num)
    have m1 := R.mono this.1
    have m2 := R.mono this.2
    rw [e2] at m1
    rw [e1] at m2
    exact absurd c2 (not_lt.2 (abs_le.2 ⟨m1, m2⟩))

theorem lonF_fold : ∀ (xs : List ℚ) (s : LonBox), (∀ t ∈ (s.x0 :: xs).zip xs, crossesDateline t.1 t.2 = 0) →
    xs.foldl (lonStepF R) s = xs.foldl lonStep s
  | [], _, _ => rfl
  | v :: xs, s, h => by
    have hc : crossesDateline s.x0 v = 0 := h (s.x0, v) (by simp)
    have e : lonStepF R s v = lonStep s v := by
      unfold lonStepF lonStep
      rw [hc, crossesF_zero hc]
      rfl
    have e0 : (lonStep s v).x0 = v := by
      unfold lonStep
      rw [hc]
      simp only [ne_eq, not_true_eq_false, if_false]
      by_cases hgt : s.x0 > v
      · rw [if_pos hgt]
      · rw [if_neg hgt]
    rw [List.foldl_cons, List.foldl_cons, e]
    exact lonF_fold xs _ (by
      rw [e0]
      intro t ht
      exact h t (by rw [List.zip_cons_cons]; exact List.mem_cons_of_mem _ ht))

theorem reduceDegF_near {x : ℚ} (h1 : -180 ≤ x) (h2 : x ≤ 180 - 1 / 2 ^ 44) : |reduceDegF R x - x| ≤ 1 / 2 ^ 43 := by
  have a1 := R.err (x + 180)
  have p : |x + 180| ≤ 360 := by rw [abs_le]; constructor <;> linarith
  have a1' := a1.trans (mul_le_mul_of_nonneg_left p (by norm_num))
  have n0 := R.nonneg (show 0 ≤ x + 180 by linarith)
  have n1 : R.fl (x + 180) < 360 := by
    have e : R.fl (360 - 1 / 2 ^ 44) = 360 - 1 / 2 ^ 44 := by
      have := R.exact (360 * 2 ^ 44 - 1) (-44) (by norm_num)
      have e2 : (((360 * 2 ^ 44 - 1 : ℤ)) : ℚ) * 2 ^ (-44 : ℤ) = 360 - 1 / 2 ^ 44 := by norm_num
      rwa [e2] at this
    have := R.mono (show x + 180 ≤ 360 - 1 / 2 ^ 44 by linarith)
    rw [e] at this
    linarith
  have em : pyModF R (R.fl (x + 180)) 360 = R.fl (x + 180) := by
    rw [pyModF_eq, if_pos n0]
    unfold pyMod
    have : ⌊R.fl (x + 180) / 360⌋ = 0 := by
      rw [Int.floor_eq_iff]
      constructor
      · push_cast; positivity
      · push_cast; rw [div_lt_iff₀ (by norm_num)]; linarith
    rw [this]
    simp
  unfold reduceDegF
  rw [em]
  have a2 := R.err (R.fl (x + 180) - 180)
  have p2 : |R.fl (x + 180) - 180| ≤ 180 := by rw [abs_le]; constructor <;> linarith
  have a2' := a2.trans (mul_le_mul_of_nonneg_left p2 (by norm_num))
  norm_num at *
  rw [abs_le] at *
  constructor <;> linarith [a1'.1, a1'.2, a2'.1, a2'.2]

/-- C149, without crossings: the limits of the box differ from the smallest and largest longitude by at most 2^-43 degrees (about a
hundredth of a micrometre on the ground).

Missing for the full claim: that every vertex is between the limits, which fails (below); geometries across the meridian 180 (C76). -/
theorem C149_close_partial (R : Rounding) {ring : Bool} {xs : List ℚ} (hr : ∀ x ∈ xs, -180 ≤ x ∧ x ≤ 180 - 1 / 2 ^ 44)
    (hx : NoCrossing (if ring then xs ++ xs.head?.toList else xs)) (hne : xs ≠ []) :
    ∃ w e west east : ℚ, lonBboxF R ring xs = some (w, e) ∧ west ∈ xs ∧ east ∈ xs ∧ (∀ x ∈ xs, west ≤ x ∧ x ≤ east) ∧
      |w - west| ≤ 1 / 2 ^ 43 ∧ |e - east| ≤ 1 / 2 ^ 43 := by
  obtain ⟨w, e, h1, hw, he, hb⟩ := C76_no_crossing_partial (fun x h => ⟨(hr x h).1, lt_of_le_of_lt (hr x h).2 (by norm_num)⟩) hx hne
  obtain ⟨x, r, rfl⟩ := List.exists_cons_of_ne_nil hne
  have hl : (if ring then x :: r ++ [x] else x :: r) = x :: (if ring then r ++ [x] else r) := by cases ring <;> rfl
  have hx' : NoCrossing (x :: (if ring then r ++ [x] else r)) := by
    cases ring <;> exact hx
  have hf : (if ring then x :: r ++ [x] else x :: r).foldl (lonStepF R) ⟨x, x, 0, x⟩ =
      (if ring then x :: r ++ [x] else x :: r).foldl lonStep ⟨x, x, 0, x⟩ := by
    apply lonF_fold
    rw [hl]
    intro t ht
    rw [List.zip_cons_cons, List.mem_cons] at ht
    rcases ht with rfl | ht
    · simp [crossesDateline]
    · exact hx' t ht
  unfold lonBbox at h1
  unfold lonBboxF
  simp only at h1 ⊢
  rw [hf]
  rw [hl, List.foldl_cons] at h1 ⊢
  have hself : lonStep ⟨x, x, 0, x⟩ x = ⟨x, x, 0, x⟩ := by
    unfold lonStep
    have : crossesDateline x x = 0 := by simp [crossesDateline]
    simp [this]
  rw [hself] at h1 ⊢
  obtain ⟨i1, i2, i3, i4, i5⟩ := lon_fold (if ring then r ++ [x] else r) ⟨x, x, 0, x⟩ hx' le_rfl le_rfl
  generalize (if ring then r ++ [x] else r).foldl lonStep ⟨x, x, 0, x⟩ = s at *
  have hmem : ∀ y, y ∈ (if ring then r ++ [x] else r) → y ∈ x :: r := by
    intro y hy
    cases ring
    · exact List.mem_cons_of_mem _ hy
    · simp at hy ⊢; tauto
  have m1 : s.xmin ∈ x :: r := by
    rcases i4 with h | h
    · rw [h]; simp
    · exact hmem _ h
  have m2 : s.xmax ∈ x :: r := by
    rcases i5 with h | h
    · rw [h]; simp
    · exact hmem _ h
  have e1 : reduceDeg s.xmin = s.xmin := reduce_eq ⟨0, by simp⟩ ⟨(hr _ m1).1, lt_of_le_of_lt (hr _ m1).2 (by norm_num)⟩
  have e2 : reduceDeg s.xmax = s.xmax := reduce_eq ⟨0, by simp⟩ ⟨(hr _ m2).1, lt_of_le_of_lt (hr _ m2).2 (by norm_num)⟩
  rw [e1, e2, Option.some.injEq, Prod.mk.injEq] at h1
  refine ⟨_, _, w, e, rfl, hw, he, hb, ?_, ?_⟩
  · rw [← h1.1]; exact reduceDegF_near (hr _ m1).1 (hr _ m1).2
  · rw [← h1.2]; exact reduceDegF_near (hr _ m2).1 (hr _ m2).2

example : (∀ x ∈ [(1 : ℚ) / 10, -1 / 3, 20], -180 ≤ x ∧ x ≤ 180 - 1 / 2 ^ 44) ∧ NoCrossing [(1 : ℚ) / 10, -1 / 3, 20] := by
  unfold NoCrossing; decide +kernel

/-- C149 is violated: the box of the line from longitude 0 to 0.1 ends west of 0.1, so its last vertex lies outside its own bounding box. -/
theorem C149_violated_outside : ∃ w e, lonBboxF double false [0, rnd (1 / 10)] = some (w, e) ∧ e < rnd (1 / 10) := by
  refine ⟨_, _, rfl, ?_⟩
  decide +kernel

/-- C149 is violated: the box of a line from 10 to the double just below 180 has -180 as eastern limit. -/
theorem C149_violated_180 : lonBboxF double false [10, 180 - 1 / 2 ^ 45] = some (10, -180) := by decide +kernel

/-- Bounds in whole units after a number of steps of the loop. -/
structure LonUnits (k m : ℤ) (s : LonBox) : Prop where
  xmin : InUnits k (2 ^ 30 + 2 ^ 29 * m) s.xmin
  xmax : InUnits k (2 ^ 30 + 2 ^ 29 * m) s.xmax
  rot : InUnits k (2 ^ 29 * m) s.rot
  x0 : InUnits k (2 ^ 30) s.x0

theorem crossesF_units {k : ℤ} {a b : ℚ} (ha : InUnits k (2 ^ 30) a) (hb : InUnits k (2 ^ 30) b) :
    crossesDatelineF R a b = crossesDateline a b := by
  unfold crossesDatelineF crossesDateline
  rw [(ha.sub hb).exact R (by norm_num), (hb.sub ha).exact R (by norm_num)]

theorem lonUnits_step {k m : ℤ} (h0 : -20 ≤ k) (h1 : k ≤ 2) (hm : 0 ≤ m) (hm1 : m ≤ 2 ^ 20) {s : LonBox} (h : LonUnits k m s) {v : ℚ}
    (hv : InUnits k (2 ^ 30) v) : lonStepF R s v = lonStep s v ∧ LonUnits k (m + 1) (lonStep s v) := by
  have ec := crossesF_units (R := R) h.x0 hv
  have c3 : |crossesDateline s.x0 v| ≤ 1 := by
    unfold crossesDateline
    by_cases c : fsign s.x0 ≠ fsign v ∧ 180 < |s.x0 - v|
    · rw [if_pos c]
      by_cases d : 180 < v - s.x0
      · rw [if_pos d]; norm_num
      · rw [if_neg d]; norm_num
    · rw [if_neg c]; norm_num
  have u360 : InUnits k (2 ^ 29) 360 := by
    obtain ⟨n, rfl⟩ : ∃ n : ℕ, k = 2 - n := ⟨(2 - k).toNat, by omega⟩
    have hn : n ≤ 22 := by omega
    have hp : (2 : ℤ) ^ n ≤ 2 ^ 22 := pow_le_pow_right₀ (by norm_num) hn
    have hz : (2 : ℚ) ^ ((2 : ℤ) - n) = 4 / 2 ^ n := by
      rw [zpow_sub₀ (by norm_num), zpow_natCast]; norm_num
    have h2 : ((2 : ℚ) ^ n) ≠ 0 := by positivity
    refine ⟨90 * 2 ^ n, ?_, ?_⟩
    · rw [abs_of_pos (by positivity)]; norm_num at hp ⊢; linarith
    · rw [hz]; push_cast; field_simp; norm_num
  have ur : InUnits k (2 ^ 29 * (m + 1)) (s.rot - (crossesDateline s.x0 v : ℚ) * 360) := by
    have := h.rot.sub (u360.mul_int c3)
    rw [mul_comm (360 : ℚ)] at this
    exact this.mono (by linarith)
  have uv : InUnits k (2 ^ 30 + 2 ^ 29 * (m + 1)) (v + (s.rot - (crossesDateline s.x0 v : ℚ) * 360)) := hv.add ur
  have big : (2 : ℤ) ^ 30 + 2 ^ 29 * (m + 1) ≤ 2 ^ 53 := by norm_num at hm1 ⊢; linarith
  have e1 := ur.exact R (show (2 : ℤ) ^ 29 * (m + 1) ≤ 2 ^ 53 by linarith)
  have e2 := uv.exact R big
  have mn : InUnits k (2 ^ 30 + 2 ^ 29 * (m + 1)) s.xmin := h.xmin.mono (by linarith)
  have mx : InUnits k (2 ^ 30 + 2 ^ 29 * (m + 1)) s.xmax := h.xmax.mono (by linarith)
  have mv : InUnits k (2 ^ 30 + 2 ^ 29 * (m + 1)) v := hv.mono (by linarith)
  have mr : InUnits k (2 ^ 29 * (m + 1)) s.rot := h.rot.mono (by linarith)
  unfold lonStepF lonStep
  rw [ec]
  by_cases c : crossesDateline s.x0 v ≠ 0
  · rw [if_pos c, if_pos c]
    dsimp only
    rw [e1, e2]
    exact ⟨rfl, mn.min uv, mx.max uv, ur, hv⟩
  · rw [if_neg c, if_neg c]
    by_cases d : s.x0 > v
    · rw [if_pos d]
      exact ⟨rfl, mn.min mv, mx, mr, hv⟩
    · rw [if_neg d]
      exact ⟨rfl, mn, mx.max mv, mr, hv⟩

theorem lonUnits_fold {k : ℤ} (h0 : -20 ≤ k) (h1 : k ≤ 2) : ∀ (xs : List ℚ) (m : ℤ) (s : LonBox), 0 ≤ m → m + xs.length ≤ 2 ^ 20 + 1 →
    LonUnits k m s → (∀ x ∈ xs, InUnits k (2 ^ 30) x) →
    xs.foldl (lonStepF R) s = xs.foldl lonStep s ∧ LonUnits k (m + xs.length) (xs.foldl lonStep s)
  | [], m, s, _, _, h, _ => by simpa using h
  | v :: xs, m, s, hm, hl, h, hx => by
    rw [List.length_cons] at hl ⊢
    push_cast at hl ⊢
    obtain ⟨e, h'⟩ := lonUnits_step (R := R) h0 h1 hm (by omega) h (hx v (by simp))
    rw [List.foldl_cons, List.foldl_cons, e]
    obtain ⟨a, b⟩ := lonUnits_fold h0 h1 xs (m + 1) (lonStep s v) (by omega) (by omega) h' fun x hh => hx x (List.mem_cons_of_mem _ hh)
    refine ⟨a, ?_⟩
    have : m + 1 + (xs.length : ℤ) = m + (xs.length + 1) := by ring
    rwa [this] at b

/-- C149, whole units: for up to a million vertices with longitudes that are whole multiples of a power of two (from 2^-20 to 4 degrees),
the limits are those of exact arithmetic, with any number of crossings. -/
theorem C149_units_partial (R : Rounding) {k : ℤ} (h0 : -20 ≤ k) (h1 : k ≤ 2) (ring : Bool) {xs : List ℚ} (hl : xs.length ≤ 2 ^ 20)
    (hx : ∀ x ∈ xs, InUnits k (2 ^ 30) x) : lonBboxF R ring xs = lonBbox ring xs := by
  cases xs with
  | nil => rfl
  | cons x r =>
    have hx0 := hx x (by simp)
    have z : InUnits k (2 ^ 29 * 0) 0 := ⟨0, by norm_num, by simp⟩
    have st : LonUnits k 0 ⟨x, x, 0, x⟩ := ⟨by simpa using hx0, by simpa using hx0, z, hx0⟩
    have len : ((if ring then x :: r ++ [x] else x :: r).length : ℤ) ≤ 2 ^ 20 + 1 := by
      have : ((x :: r).length : ℤ) ≤ 2 ^ 20 := by exact_mod_cast hl
      cases ring
      · simp at this ⊢; omega
      · simp at this ⊢; omega
    obtain ⟨e, u⟩ := lonUnits_fold (R := R) h0 h1 (if ring then x :: r ++ [x] else x :: r) 0 ⟨x, x, 0, x⟩ le_rfl (by omega) st (by
      intro y hy
      cases ring
      · exact hx y hy
      · rw [if_pos rfl, List.mem_append, List.mem_singleton] at hy
        rcases hy with hy | rfl
        · exact hx y hy
        · exact hx0)
    unfold lonBboxF lonBbox
    dsimp only
    rw [e]
    have c : (2 : ℤ) ^ 30 + 2 ^ 29 * (0 + ((if ring then x :: r ++ [x] else x :: r).length : ℤ)) ≤ 2 ^ 52 := by
      norm_num at len ⊢
      linarith
    rw [reduceDegF_units (by omega) h1 (u.xmin.mono c), reduceDegF_units (by omega) h1 (u.xmax.mono c)]

example : lonBboxF double false [170, -170, 345 / 2] = some (170, -170) ∧ ∀ x ∈ [(170 : ℚ), -170, 345 / 2], InUnits (-1) (2 ^ 30) x := by
  refine ⟨by decide +kernel, ?_⟩
  intro x hx
  simp only [List.mem_cons, List.not_mem_nil, or_false] at hx
  rcases hx with rfl | rfl | rfl
  · exact ⟨340, by norm_num, by norm_num⟩
  · exact ⟨-340, by norm_num, by norm_num⟩
  · exact ⟨345, by norm_num, by norm_num⟩

end Karta.Float
