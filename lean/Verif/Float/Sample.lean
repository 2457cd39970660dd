import Verif.Float.Area
import Verif.Float.Coord
import Verif.Grid.SampleProps

/-!
Model of the bilinear sampling kernels (`/repo/karta/raster/crfuncs.pyx` 35-157) with rounded arithmetic, and property C168.
-/

namespace Karta.Float
open Karta Karta.Grid

variable (R : Rounding)

/-- One of the four products `Z[a,b]*(…)*(…)` (crfuncs.pyx 70-73, 112-115, 151-152) with its two weights.  Simplification: the compiler is
assumed not to fuse products and sums. -/
def productF (z u v : ℚ) : ℚ := R.fl (R.fl (z * R.fl u) * R.fl v)

/-- The weighted sum of the kernels (crfuncs.pyx 70-73, 112-115, 151-152), from left to right.  The choice of neighbours (crfuncs.pyx 49-67)
is exact in floating point for indices below 2^31. -/
def weightedF (Z : Int → Int → ℚ) (i j : ℚ) : ℚ :=
  R.fl (R.fl (R.fl (productF R (Z (bracket i).1 (bracket j).1) (((bracket i).2 : ℚ) - i) (((bracket j).2 : ℚ) - j) +
    productF R (Z (bracket i).2 (bracket j).1) (i - ((bracket i).1 : ℚ)) (((bracket j).2 : ℚ) - j)) +
    productF R (Z (bracket i).1 (bracket j).2) (((bracket i).2 : ℚ) - i) (j - ((bracket j).1 : ℚ))) +
    productF R (Z (bracket i).2 (bracket j).2) (i - ((bracket i).1 : ℚ)) (j - ((bracket j).1 : ℚ)))

/-- `sample_bilinear_double` for one position (crfuncs.pyx 118-157). -/
def kernelDoubleF (na : ℚ) (Z : Arr ℚ) (i j : ℚ) : ℚ :=
  if bracketsInside Z.ny Z.nx i j then weightedF R (fun r c => Z.get r.toNat c.toNat) i j else na

/-- `sample_bilinear_uint` for one position (crfuncs.pyx 35-76). -/
def kernelUintF (na : Int) (Z : Arr Int) (i j : ℚ) : Int :=
  if bracketsInside Z.ny Z.nx i j then trunc (weightedF R (fun r c => (Z.get r.toNat c.toNat : ℚ)) i j) else na

/-- `sample_bilinear_int` for one position (crfuncs.pyx 78-116).  Simplification: the neighbours are in the array (Grid/Sample.lean is about
what happens otherwise). -/
def kernelIntF (Z : Arr Int) (i j : ℚ) : Int := trunc (weightedF R (fun r c => (Z.get r.toNat c.toNat : ℚ)) i j)

/-! ### Lemmas -/

variable {R}

theorem productF_growth (z u v : ℚ) : |productF R z u v - z * u * v| ≤ growth 4 * (|z| * |u| * |v|) ∧ |z * u * v| ≤ |z| * |u| * |v| := by
  have hu : |R.fl u - u| ≤ growth 1 * |u| := fl_growth exact_growth le_rfl
  have hv : |R.fl v - v| ≤ growth 1 * |v| := fl_growth exact_growth le_rfl
  obtain ⟨a1, a2⟩ := mul_growth (exact_growth (x := z)) le_rfl hu le_rfl
  have b := fl_growth (R := R) a1 a2
  obtain ⟨c1, c2⟩ := mul_growth b a2 hv le_rfl
  exact ⟨fl_growth (R := R) c1 c2, c2⟩

/-- The size of the weighted sum. -/
theorem weights_size {z1 z2 z3 z4 s t M : ℚ} (h1 : |z1| ≤ M) (h2 : |z2| ≤ M) (h3 : |z3| ≤ M) (h4 : |z4| ≤ M) (hs : 0 ≤ s) (hs' : s ≤ 1)
    (ht : 0 ≤ t) (ht' : t ≤ 1) :
    |z1| * (1 - s) * (1 - t) + |z2| * s * (1 - t) + |z3| * (1 - s) * t + |z4| * s * t ≤ M := by
  have w1 : 0 ≤ (1 - s) * (1 - t) := mul_nonneg (by linarith) (by linarith)
  have w2 : 0 ≤ s * (1 - t) := mul_nonneg hs (by linarith)
  have w3 : 0 ≤ (1 - s) * t := mul_nonneg (by linarith) ht
  have w4 : 0 ≤ s * t := mul_nonneg hs ht
  nlinarith [mul_le_mul_of_nonneg_right h1 w1, mul_le_mul_of_nonneg_right h2 w2, mul_le_mul_of_nonneg_right h3 w3,
    mul_le_mul_of_nonneg_right h4 w4]

theorem weightedF_error (Z : Int → Int → ℚ) (i j M : ℚ)
    (hZ : ∀ r c, (r = (bracket i).1 ∨ r = (bracket i).2) → (c = (bracket j).1 ∨ c = (bracket j).2) → |Z r c| ≤ M) :
    |weightedF R Z i j - weighted Z i j| ≤ growth 7 * M := by
  obtain ⟨bi, bi1, bi2⟩ := bracket_bounds i
  obtain ⟨bj, bj1, bj2⟩ := bracket_bounds j
  have p1 := productF_growth (R := R) (Z (bracket i).1 (bracket j).1) (((bracket i).2 : ℚ) - i) (((bracket j).2 : ℚ) - j)
  have p2 := productF_growth (R := R) (Z (bracket i).2 (bracket j).1) (i - ((bracket i).1 : ℚ)) (((bracket j).2 : ℚ) - j)
  have p3 := productF_growth (R := R) (Z (bracket i).1 (bracket j).2) (((bracket i).2 : ℚ) - i) (j - ((bracket j).1 : ℚ))
  have p4 := productF_growth (R := R) (Z (bracket i).2 (bracket j).2) (i - ((bracket i).1 : ℚ)) (j - ((bracket j).1 : ℚ))
  obtain ⟨s1, s2⟩ := add_growth p1.1 p1.2 p2.1 p2.2
  obtain ⟨t1, t2⟩ := add_growth (fl_growth (R := R) s1 s2) s2 p3.1 p3.2
  obtain ⟨u1, u2⟩ := add_growth (fl_growth (R := R) t1 t2) t2 p4.1 p4.2
  have f := fl_growth (R := R) u1 u2
  have hb : (((bracket i).2 : ℚ) - i) = 1 - (i - ((bracket i).1 : ℚ)) := by rw [bi]; push_cast; ring
  have hb' : (((bracket j).2 : ℚ) - j) = 1 - (j - ((bracket j).1 : ℚ)) := by rw [bj]; push_cast; ring
  have hi0 : (0 : ℚ) ≤ i - ((bracket i).1 : ℚ) := by linarith
  have hi1 : i - ((bracket i).1 : ℚ) ≤ 1 := by rw [bi] at bi2; push_cast at bi2; linarith
  have hj0 : (0 : ℚ) ≤ j - ((bracket j).1 : ℚ) := by linarith
  have hj1 : j - ((bracket j).1 : ℚ) ≤ 1 := by rw [bj] at bj2; push_cast at bj2; linarith
  have size := weights_size (hZ _ _ (Or.inl rfl) (Or.inl rfl)) (hZ _ _ (Or.inr rfl) (Or.inl rfl)) (hZ _ _ (Or.inl rfl) (Or.inr rfl))
    (hZ _ _ (Or.inr rfl) (Or.inr rfl)) hi0 hi1 hj0 hj1
  refine (le_trans ?_ (mul_le_mul_of_nonneg_left size (growth_nonneg 7)))
  rw [← hb, ← hb']
  have ai : |((bracket i).2 : ℚ) - i| = ((bracket i).2 : ℚ) - i := abs_of_nonneg (by linarith)
  have aj : |((bracket j).2 : ℚ) - j| = ((bracket j).2 : ℚ) - j := abs_of_nonneg (by linarith)
  rw [abs_of_nonneg hi0, abs_of_nonneg hj0, ai, aj] at f
  exact f

theorem growth_seven : growth 7 ≤ 8 / 2 ^ 53 := by unfold growth; norm_num

theorem trunc_mono {p q : ℚ} (h : p ≤ q) : trunc p ≤ trunc q := by
  unfold trunc
  by_cases hp : 0 ≤ p
  · rw [if_pos hp, if_pos (hp.trans h)]; exact Int.floor_le_floor h
  · by_cases hq : 0 ≤ q
    · rw [if_neg hp, if_pos hq]
      exact (Int.ceil_le.2 (by push_cast; linarith : p ≤ ((0 : ℤ) : ℚ))).trans (Int.floor_nonneg.2 hq)
    · rw [if_neg hp, if_neg hq]; exact Int.ceil_le_ceil h

theorem trunc_add_one (q : ℚ) : trunc (q + 1) ≤ trunc q + 1 := by
  unfold trunc
  by_cases h0 : 0 ≤ q
  · rw [if_pos h0, if_pos (by linarith), Int.floor_add_one]
  · rw [if_neg h0]
    by_cases h1 : 0 ≤ q + 1
    · rw [if_pos h1, Int.floor_add_one]
      have := Int.floor_le_ceil q
      omega
    · rw [if_neg h1, Int.ceil_add_one]

theorem trunc_near {p q : ℚ} (h : |p - q| ≤ 1) : |trunc p - trunc q| ≤ 1 := by
  obtain ⟨h1, h2⟩ := abs_le.1 h
  rw [abs_le]
  have a := (trunc_mono (by linarith : p ≤ q + 1)).trans (trunc_add_one q)
  have b := (trunc_mono (by linarith : q ≤ p + 1)).trans (trunc_add_one p)
  omega

theorem trunc_same {p q e : ℚ} (h : |p - q| ≤ e) (hn : ∀ n : ℤ, e < |q - n|) : trunc p = trunc q := by
  have hf : ⌊p⌋ = ⌊q⌋ := by
    obtain ⟨h1, h2⟩ := abs_le.1 h
    have a := hn ⌊q⌋
    have b := hn (⌊q⌋ + 1)
    have c := Int.floor_le q
    have d := Int.lt_floor_add_one q
    rw [abs_of_nonneg (by linarith)] at a
    rw [abs_of_nonpos (by push_cast; linarith)] at b
    push_cast at b
    rw [Int.floor_eq_iff]
    constructor <;> linarith
  have hc : ⌈p⌉ = ⌈q⌉ := by
    obtain ⟨h1, h2⟩ := abs_le.1 h
    have a := hn ⌈q⌉
    have b := hn (⌈q⌉ - 1)
    have c := Int.le_ceil q
    have d := Int.ceil_lt_add_one q
    rw [abs_of_nonpos (by linarith)] at a
    rw [abs_of_nonneg (by push_cast; linarith)] at b
    push_cast at b
    rw [Int.ceil_eq_iff]
    constructor <;> linarith
  have hs : (0 ≤ p) = (0 ≤ q) := by
    rw [eq_iff_iff, ← Int.floor_nonneg (a := p), ← Int.floor_nonneg (a := q), hf]
  unfold trunc
  simp only [hf, hc, hs]

theorem sure_mem {H W : Nat} {i j : ℚ} (h : bracketsInside H W i j = true) {r c : Int} (hr : r = (bracket i).1 ∨ r = (bracket i).2)
    (hc : c = (bracket j).1 ∨ c = (bracket j).2) : (r.toNat : Int) = r ∧ (c.toNat : Int) = c ∧ r.toNat < H ∧ c.toNat < W := by
  obtain ⟨bi, -, -⟩ := bracket_bounds i
  obtain ⟨bj, -, -⟩ := bracket_bounds j
  simp only [bracketsInside, decide_eq_true_eq] at h
  omega

/-- Which positions have their neighbours in the array: those in the hull of the cell centres, of an array of two rows and columns at least. -/
theorem inside_iff {H W : Nat} (hH : 2 ≤ H) (hW : 2 ≤ W) (i j : ℚ) : bracketsInside H W i j = true ↔ InHull H W i j := by
  have key : ∀ (n : Nat) (q : ℚ), 2 ≤ n → ((bracket q).1 ≥ 0 ∧ (bracket q).2 < n ↔ 0 ≤ q ∧ q ≤ (n : ℚ) - 1) := by
    intro n q hn
    have h0 := Int.floor_le q
    have h1 := Int.lt_floor_add_one q
    unfold bracket
    by_cases a : q ≠ (⌊q⌋ : ℚ)
    · rw [if_pos a]
      have a' : (⌊q⌋ : ℚ) < q := lt_of_le_of_ne h0 (Ne.symm a)
      constructor
      · rintro ⟨k1, k2⟩
        dsimp only at k1 k2
        have k1' : (0 : ℚ) ≤ ⌊q⌋ := by exact_mod_cast k1
        have k2' : (⌊q⌋ : ℚ) + 1 + 1 ≤ n := by exact_mod_cast k2
        constructor <;> linarith
      · rintro ⟨k1, k2⟩
        refine ⟨Int.floor_nonneg.2 k1, ?_⟩
        have : ((⌊q⌋ + 1 : ℤ) : ℚ) < ((n : ℤ) : ℚ) := by push_cast; linarith
        exact_mod_cast this
    · rw [if_neg a]
      push Not at a
      obtain ⟨m, rfl⟩ : ∃ m : ℤ, q = m := ⟨_, a⟩
      rw [Int.floor_intCast]
      by_cases b : (m : ℚ) ≠ 0
      · rw [if_pos b]
        have b' : m ≠ 0 := by exact_mod_cast b
        have e1 : (0 : ℚ) ≤ (m : ℚ) ↔ 0 ≤ m := by exact_mod_cast Iff.rfl
        have e2 : (m : ℚ) ≤ (n : ℚ) - 1 ↔ m ≤ (n : ℤ) - 1 := by
          have : ((n : ℚ) - 1) = (((n : ℤ) - 1 : ℤ) : ℚ) := by push_cast; rfl
          rw [this]; exact_mod_cast Iff.rfl
        rw [e1, e2]
        dsimp only
        omega
      · push Not at b
        have b' : m = 0 := by exact_mod_cast b
        subst b'
        rw [if_neg (by simp)]
        have : (2 : ℚ) ≤ n := by exact_mod_cast hn
        constructor
        · intro _; constructor
          · simp
          · push_cast; linarith
        · intro _; dsimp only; omega
  simp only [bracketsInside, decide_eq_true_eq, InHull]
  have a := key H i hH
  have b := key W j hW
  tauto

theorem productF_units {k s B : ℤ} {z u v : ℚ} (hB : B * 2 ^ s.toNat * 2 ^ s.toNat ≤ 2 ^ 53) (hB0 : 0 ≤ B) (hz : InUnits k B z)
    (hu : InUnits (-s) (2 ^ s.toNat) u) (hv : InUnits (-s) (2 ^ s.toNat) v) (hs : (2 : ℤ) ^ s.toNat ≤ 2 ^ 53) :
    productF R z u v = z * u * v ∧ InUnits (k + -s + -s) (B * 2 ^ s.toNat * 2 ^ s.toNat) (z * u * v) := by
  have h1 := hz.mul hu
  have h2 := h1.mul hv
  have one : (1 : ℤ) ≤ 2 ^ s.toNat := one_le_pow₀ (by norm_num)
  have le1 : B * 2 ^ s.toNat ≤ 2 ^ 53 := le_trans (le_mul_of_one_le_right (mul_nonneg hB0 (by positivity)) one) hB
  unfold productF
  rw [hu.exact R hs, hv.exact R hs, h1.exact R le1, h2.exact R hB]
  exact ⟨rfl, h2⟩

/-- Weights of positions in multiples of `2 ^ (-s)`. -/
theorem weight_units {s : Nat} {n : ℤ} {u : ℚ} (h : u = (n : ℚ) / 2 ^ s) (h0 : 0 ≤ u) (h1 : u ≤ 1) : InUnits (-(s : ℤ)) (2 ^ s) u := by
  have hp : (0 : ℚ) < 2 ^ s := by positivity
  refine ⟨n, ?_, ?_⟩
  · rw [h] at h0 h1
    rw [div_le_one hp] at h1
    have n0 : (0 : ℚ) ≤ n := by
      have := mul_nonneg h0 hp.le
      rwa [div_mul_cancel₀ _ hp.ne'] at this
    have n0' : 0 ≤ n := by exact_mod_cast n0
    rw [abs_of_nonneg n0']
    exact_mod_cast h1
  · rw [h, zpow_neg, zpow_natCast, div_eq_mul_inv]

theorem weightedF_exact {Z : Int → Int → ℚ} {i j : ℚ} {s : Nat} {m n : ℤ} {k B : ℤ} (hi : i = (m : ℚ) / 2 ^ s) (hj : j = (n : ℚ) / 2 ^ s)
    (hB0 : 0 ≤ B) (hB : 4 * (B * 2 ^ s * 2 ^ s) ≤ 2 ^ 53) (hs : s ≤ 53)
    (hZ : ∀ r c, (r = (bracket i).1 ∨ r = (bracket i).2) → (c = (bracket j).1 ∨ c = (bracket j).2) → InUnits k B (Z r c)) :
    weightedF R Z i j = weighted Z i j := by
  obtain ⟨bi, bi1, bi2⟩ := bracket_bounds i
  obtain ⟨bj, bj1, bj2⟩ := bracket_bounds j
  have hp : (0 : ℚ) < 2 ^ s := by positivity
  have bi' : ((bracket i).2 : ℚ) = (bracket i).1 + 1 := by rw [bi]; push_cast; rfl
  have bj' : ((bracket j).2 : ℚ) = (bracket j).1 + 1 := by rw [bj]; push_cast; rfl
  have w1 : InUnits (-(s : ℤ)) (2 ^ s) (((bracket i).2 : ℚ) - i) :=
    weight_units (n := (bracket i).2 * 2 ^ s - m) (by rw [hi]; push_cast; rw [sub_div, mul_div_cancel_right₀ _ hp.ne']) (by linarith)
      (by linarith)
  have w2 : InUnits (-(s : ℤ)) (2 ^ s) (i - ((bracket i).1 : ℚ)) :=
    weight_units (n := m - (bracket i).1 * 2 ^ s) (by rw [hi]; push_cast; rw [sub_div, mul_div_cancel_right₀ _ hp.ne']) (by linarith)
      (by linarith)
  have w3 : InUnits (-(s : ℤ)) (2 ^ s) (((bracket j).2 : ℚ) - j) :=
    weight_units (n := (bracket j).2 * 2 ^ s - n) (by rw [hj]; push_cast; rw [sub_div, mul_div_cancel_right₀ _ hp.ne']) (by linarith)
      (by linarith)
  have w4 : InUnits (-(s : ℤ)) (2 ^ s) (j - ((bracket j).1 : ℚ)) :=
    weight_units (n := n - (bracket j).1 * 2 ^ s) (by rw [hj]; push_cast; rw [sub_div, mul_div_cancel_right₀ _ hp.ne']) (by linarith)
      (by linarith)
  have hs' : (2 : ℤ) ^ (s : ℤ).toNat ≤ 2 ^ 53 := by rw [Int.toNat_natCast]; exact pow_le_pow_right₀ (by norm_num) hs
  have D0 : 0 ≤ B * 2 ^ s * 2 ^ s := by positivity
  have hB' : B * 2 ^ (s : ℤ).toNat * 2 ^ (s : ℤ).toNat ≤ 2 ^ 53 := by rw [Int.toNat_natCast]; linarith
  obtain ⟨e1, u1⟩ := productF_units (R := R) (s := s) hB' hB0 (hZ _ _ (Or.inl rfl) (Or.inl rfl)) (by simpa using w1) (by simpa using w3) hs'
  obtain ⟨e2, u2⟩ := productF_units (R := R) (s := s) hB' hB0 (hZ _ _ (Or.inr rfl) (Or.inl rfl)) (by simpa using w2) (by simpa using w3) hs'
  obtain ⟨e3, u3⟩ := productF_units (R := R) (s := s) hB' hB0 (hZ _ _ (Or.inl rfl) (Or.inr rfl)) (by simpa using w1) (by simpa using w4) hs'
  obtain ⟨e4, u4⟩ := productF_units (R := R) (s := s) hB' hB0 (hZ _ _ (Or.inr rfl) (Or.inr rfl)) (by simpa using w2) (by simpa using w4) hs'
  rw [Int.toNat_natCast] at u1 u2 u3 u4
  have a1 := u1.add u2
  have a2 := a1.add u3
  have a3 := a2.add u4
  unfold weightedF weighted
  dsimp only
  rw [e1, e2, e3, e4, a1.exact R (by linarith), a2.exact R (by linarith), a3.exact R (by linarith)]

/-! ### C168 -/

/-- C168, error: at every position in the hull of the cell centres, the value differs from the exact interpolation by at most eight units of
relative rounding of the largest value. -/
theorem C168_error (R : Rounding) (na : ℚ) (Z : Arr ℚ) (hH : 2 ≤ Z.ny) (hW : 2 ≤ Z.nx) (i j M : ℚ) (h : InHull Z.ny Z.nx i j)
    (hZ : ∀ r c, r < Z.ny → c < Z.nx → |Z.get r c| ≤ M) :
    |kernelDoubleF R na Z i j - interp (fun r c => Z.get r.toNat c.toNat) i j| ≤ 8 / 2 ^ 53 * M := by
  have hb := (inside_iff hH hW i j).2 h
  have hM : 0 ≤ M := le_trans (abs_nonneg _) (hZ 0 0 (by omega) (by omega))
  unfold kernelDoubleF
  rw [if_pos hb, ← weighted_eq]
  refine (weightedF_error _ _ _ _ fun r c hr hc => ?_).trans (mul_le_mul_of_nonneg_right growth_seven hM)
  obtain ⟨-, -, k1, k2⟩ := sure_mem hb hr hc
  exact hZ _ _ k1 k2

/-- C168, range: the value exceeds the values of the array by no more than that. -/
theorem C168_between (R : Rounding) (na : ℚ) (Z : Arr ℚ) (hH : 2 ≤ Z.ny) (hW : 2 ≤ Z.nx) (i j lo hi : ℚ) (h : InHull Z.ny Z.nx i j)
    (hZ : ∀ r c, r < Z.ny → c < Z.nx → lo ≤ Z.get r c ∧ Z.get r c ≤ hi) :
    lo - 8 / 2 ^ 53 * max |lo| |hi| ≤ kernelDoubleF R na Z i j ∧ kernelDoubleF R na Z i j ≤ hi + 8 / 2 ^ 53 * max |lo| |hi| := by
  have e := C168_error R na Z hH hW i j (max |lo| |hi|) h fun r c hr hc => abs_le_max_abs_abs (hZ r c hr hc).1 (hZ r c hr hc).2
  have hlo : lo ≤ interp (fun r c => Z.get r.toNat c.toNat) i j ∧ interp (fun r c => Z.get r.toNat c.toNat) i j ≤ hi := by
    rw [← weighted_eq]
    have hb := (inside_iff hH hW i j).2 h
    have hw : weighted (fun r c => Z.get r.toNat c.toNat) i j =
        weighted (fun r c => max lo (min hi (Z.get r.toNat c.toNat))) i j := by
      refine weighted_congr fun r c hr hc => ?_
      obtain ⟨-, -, k1, k2⟩ := sure_mem hb hr hc
      obtain ⟨l1, l2⟩ := hZ _ _ k1 k2
      rw [min_eq_right l2, max_eq_right l1]
    rw [hw, weighted_eq]
    have hle : lo ≤ hi := (hZ 0 0 (by omega) (by omega)).1.trans (hZ 0 0 (by omega) (by omega)).2
    exact C16_between fun a b _ _ => ⟨le_max_left _ _, max_le hle (min_le_left _ _)⟩
  obtain ⟨e1, e2⟩ := abs_le.1 e
  constructor <;> linarith

/-- C168, outside: positions outside the hull get the nodata value, for values in floating point and for unsigned integers. -/
theorem C168_outside (R : Rounding) (na : ℚ) (Z : Arr ℚ) (na' : Int) (Z' : Arr Int) (hH : 2 ≤ Z.ny) (hW : 2 ≤ Z.nx) (hH' : 2 ≤ Z'.ny)
    (hW' : 2 ≤ Z'.nx) (i j : ℚ) :
    (¬ InHull Z.ny Z.nx i j → kernelDoubleF R na Z i j = na) ∧ (¬ InHull Z'.ny Z'.nx i j → kernelUintF R na' Z' i j = na') := by
  constructor
  · intro h
    unfold kernelDoubleF
    rw [if_neg (fun k => h ((inside_iff hH hW i j).1 k))]
  · intro h
    unfold kernelUintF
    rw [if_neg (fun k => h ((inside_iff hH' hW' i j).1 k))]

theorem integer_error (Z : Arr Int) (hH : 2 ≤ Z.ny) (hW : 2 ≤ Z.nx) (i j : ℚ) (M : ℚ) (h : InHull Z.ny Z.nx i j)
    (hZ : ∀ r c, r < Z.ny → c < Z.nx → |(Z.get r c : ℚ)| ≤ M) :
    |weightedF R (fun r c => (Z.get r.toNat c.toNat : ℚ)) i j - interp (fun r c => (Z.get r.toNat c.toNat : ℚ)) i j| ≤ 8 / 2 ^ 53 * M := by
  have := C168_error R 0 ⟨Z.ny, Z.nx, fun r c => (Z.get r c : ℚ)⟩ hH hW i j M h hZ
  unfold kernelDoubleF at this
  rw [if_pos ((inside_iff hH hW i j).2 h)] at this
  exact this

/-- C168 for integers: unless the exact interpolation is within the error of an integer, truncation gives the same as without rounding.
Missing for the full C168: positions where it is an integer (violated below). -/
theorem C168_integers_partial (R : Rounding) (na : Int) (Z : Arr Int) (hH : 2 ≤ Z.ny) (hW : 2 ≤ Z.nx) (i j M : ℚ) (h : InHull Z.ny Z.nx i j)
    (hZ : ∀ r c, r < Z.ny → c < Z.nx → |(Z.get r c : ℚ)| ≤ M)
    (hn : ∀ n : ℤ, 8 / 2 ^ 53 * M < |interp (fun r c => (Z.get r.toNat c.toNat : ℚ)) i j - n|) :
    kernelIntF R Z i j = trunc (interp (fun r c => (Z.get r.toNat c.toNat : ℚ)) i j) ∧
    kernelUintF R na Z i j = trunc (interp (fun r c => (Z.get r.toNat c.toNat : ℚ)) i j) := by
  have e := trunc_same (integer_error (R := R) Z hH hW i j M h hZ) hn
  refine ⟨e, ?_⟩
  unfold kernelUintF
  rw [if_pos ((inside_iff hH hW i j).2 h)]
  exact e

/-- C168 for integers of up to 50 bits: the value is never off by more than one. -/
theorem C168_off_by_one (R : Rounding) (na : Int) (Z : Arr Int) (hH : 2 ≤ Z.ny) (hW : 2 ≤ Z.nx) (i j : ℚ) (h : InHull Z.ny Z.nx i j)
    (hZ : ∀ r c, r < Z.ny → c < Z.nx → |Z.get r c| ≤ 2 ^ 50) :
    |kernelIntF R Z i j - trunc (interp (fun r c => (Z.get r.toNat c.toNat : ℚ)) i j)| ≤ 1 ∧
    |kernelUintF R na Z i j - trunc (interp (fun r c => (Z.get r.toNat c.toNat : ℚ)) i j)| ≤ 1 := by
  have e := integer_error (R := R) Z hH hW i j (2 ^ 50) h fun r c hr hc => by exact_mod_cast hZ r c hr hc
  have k := trunc_near (e.trans (by norm_num))
  refine ⟨k, ?_⟩
  unfold kernelUintF
  rw [if_pos ((inside_iff hH hW i j).2 h)]
  exact k

/-- C168, exact cases: for positions in whole multiples of a power `1 / 2 ^ s` of one half and values in whole multiples, up to `B`, of a power
of two, with `B * 4 ^ (s + 1)` up to `2 ^ 53`, nothing is rounded. -/
theorem C168_exact (R : Rounding) (na : ℚ) (Z : Arr ℚ) (hH : 2 ≤ Z.ny) (hW : 2 ≤ Z.nx) (i j : ℚ) (h : InHull Z.ny Z.nx i j) (s : Nat)
    (m n k B : ℤ) (hi : i = (m : ℚ) / 2 ^ s) (hj : j = (n : ℚ) / 2 ^ s) (hs : s ≤ 53) (hB0 : 0 ≤ B) (hB : 4 * (B * 2 ^ s * 2 ^ s) ≤ 2 ^ 53)
    (hZ : ∀ r c, r < Z.ny → c < Z.nx → InUnits k B (Z.get r c)) :
    kernelDoubleF R na Z i j = interp (fun r c => Z.get r.toNat c.toNat) i j := by
  have hb := (inside_iff hH hW i j).2 h
  unfold kernelDoubleF
  rw [if_pos hb, ← weighted_eq]
  refine weightedF_exact (k := k) hi hj hB0 hB hs fun r c hr hc => ?_
  obtain ⟨-, -, k1, k2⟩ := sure_mem hb hr hc
  exact hZ _ _ k1 k2

/-- C168, exact cases for integers: 32-bit values at multiples of 1/512, 16-bit values at multiples of 1/2^17. -/
theorem C168_exact_integers (R : Rounding) (na : Int) (Z : Arr Int) (hH : 2 ≤ Z.ny) (hW : 2 ≤ Z.nx) (i j : ℚ) (h : InHull Z.ny Z.nx i j)
    (s : Nat) (m n B : ℤ) (hi : i = (m : ℚ) / 2 ^ s) (hj : j = (n : ℚ) / 2 ^ s) (hc : (s = 9 ∧ B = 2 ^ 32) ∨ (s = 17 ∧ B = 2 ^ 16))
    (hZ : ∀ r c, r < Z.ny → c < Z.nx → |Z.get r c| ≤ B) :
    kernelIntF R Z i j = trunc (interp (fun r c => (Z.get r.toNat c.toNat : ℚ)) i j) ∧
    kernelUintF R na Z i j = trunc (interp (fun r c => (Z.get r.toNat c.toNat : ℚ)) i j) := by
  have hb := (inside_iff hH hW i j).2 h
  have e : weightedF R (fun r c => (Z.get r.toNat c.toNat : ℚ)) i j = interp (fun r c => (Z.get r.toNat c.toNat : ℚ)) i j := by
    rw [← weighted_eq]
    refine weightedF_exact (k := 0) (B := B) hi hj ?_ ?_ ?_ fun r c hr hc => ?_
    · rcases hc with ⟨-, rfl⟩ | ⟨-, rfl⟩ <;> norm_num
    · rcases hc with ⟨rfl, rfl⟩ | ⟨rfl, rfl⟩ <;> norm_num
    · rcases hc with ⟨rfl, -⟩ | ⟨rfl, -⟩ <;> norm_num
    · obtain ⟨-, -, k1, k2⟩ := sure_mem hb hr hc
      exact ⟨_, hZ _ _ k1 k2, by simp⟩
  constructor
  · unfold kernelIntF; rw [e]
  · unfold kernelUintF; rw [if_pos hb, e]

/-- C168, centres: at the centre of a cell the value is that of the cell, if the values are floating-point numbers. -/
theorem C168_centre (R : Rounding) (na : ℚ) (Z : Arr ℚ) (hH : 2 ≤ Z.ny) (hW : 2 ≤ Z.nx) (r c : Nat) (hr : r < Z.ny) (hc : c < Z.nx)
    (hZ : ∀ r c, r < Z.ny → c < Z.nx → R.fl (Z.get r c) = Z.get r c) : kernelDoubleF R na Z r c = Z.get r c := by
  have hh : InHull Z.ny Z.nx r c := by
    refine ⟨by positivity, ?_, by positivity, ?_⟩
    · have : (r : ℚ) + 1 ≤ Z.ny := by exact_mod_cast hr
      linarith
    · have : (c : ℚ) + 1 ≤ Z.nx := by exact_mod_cast hc
      linarith
  have hb := (inside_iff hH hW (r : ℚ) (c : ℚ)).2 hh
  have one : R.fl 1 = 1 := by have := R.int 1 (by norm_num); simpa using this
  have br : ∀ q : Nat, bracket (q : ℚ) = if q = 0 then (0, 1) else ((q : ℤ) - 1, (q : ℤ)) := by
    intro q
    unfold bracket
    rw [Int.floor_natCast]
    by_cases h : q = 0
    · subst h; simp
    · have : (q : ℚ) ≠ 0 := by exact_mod_cast h
      simp [h]
  have hv := hZ r c hr hc
  unfold kernelDoubleF
  rw [if_pos hb]
  unfold weightedF productF
  rw [br r, br c]
  by_cases h1 : r = 0 <;> by_cases h2 : c = 0 <;>
    simp [h1, h2, one, R.zero, hv] <;> simp_all [R.idem]

/-- C168 is violated for integers: in an array that is 3 throughout, the position (1.1, 1.2) is sampled as 2. -/
theorem C168_violated_constant :
    kernelIntF double ⟨4, 4, fun _ _ => 3⟩ (rnd 1.1) (rnd 1.2) = 2 ∧ kernelUintF double 0 ⟨4, 4, fun _ _ => 3⟩ (rnd 1.1) (rnd 1.2) = 2 ∧
    InHull 4 4 (rnd 1.1) (rnd 1.2) ∧ interp (fun _ _ => 3) (rnd 1.1) (rnd 1.2) = 3 := by
  decide +kernel

/-- The same from the position in the plane: the point (1.7, 1.6) of the grid with cells of size 1 at the origin. -/
theorem C168_violated_point :
    (positionsF double ⟨0, 0, 1, 1, 0, 0⟩ (rnd 1.7) (rnd 1.6)).map (fun p => kernelIntF double ⟨4, 4, fun _ _ => 3⟩ p.1 p.2) = some 2 := by
  decide +kernel

/-- C168 is violated for values in floating point: an array that is 3 throughout is sampled as less than 3. -/
theorem C168_violated_below : kernelDoubleF double 0 ⟨4, 4, fun _ _ => 3⟩ (rnd 1.1) (rnd 1.2) < 3 := by
  decide +kernel

/-- Hypotheses met: a position away from integers, and one in eighths. -/
example : InHull 2 3 (5 / 8) (11 / 8) ∧ (5 / 8 : ℚ) = (5 : ℤ) / 2 ^ 3 ∧
    interp (fun r c => ((10 * r + c : ℤ) : ℚ)) (5 / 8) (11 / 8) = 61 / 8 ∧
    kernelDoubleF double (-1) ⟨2, 3, fun r c => 10 * r + c⟩ (5 / 8) (11 / 8) = 61 / 8 ∧
    kernelIntF double ⟨2, 3, fun r c => 10 * r + c⟩ (5 / 8) (11 / 8) = 7 := by
  refine ⟨by decide +kernel, by norm_num, by decide +kernel, by decide +kernel, by decide +kernel⟩

end Karta.Float
