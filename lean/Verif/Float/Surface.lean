import Verif.Float.Single
import Verif.Grid.SurfaceProps

/-!
Model of `gradient` (`/repo/karta/raster/misc.py` 73-101) with the cast to single precision and rounded arithmetic, and property C173.
-/

namespace Karta.FloatSurface
open Karta Karta.Surface Karta.Float

variable (S A : Single)

/-- `Ddx` (misc.py 76-77) with every operation rounded.  `A` is the precision of the arithmetic: single or double, depending on the version of
numpy, which decides whether the constant NaN widens the array that `np.where` returns.  The divisor is converted to the same precision. -/
def ddxF (D : Arr (Option ℚ)) (dx : ℚ) : Arr (Option ℚ) :=
  mapA (fun x => A.fl (x / A.fl (8 * dx)))
    (zip (fun x y => A.fl (x - y))
      (zip (fun x y => A.fl (x + y)) (zip (fun x y => A.fl (x + y)) (mapA (fun x => A.fl (2 * x)) (win D 1 2)) (win D 0 2)) (win D 2 2))
      (zip (fun x y => A.fl (x + y)) (zip (fun x y => A.fl (x + y)) (mapA (fun x => A.fl (2 * x)) (win D 1 0)) (win D 0 0)) (win D 2 0)))

/-- `Ddy` (misc.py 78-79) with every operation rounded. -/
def ddyF (D : Arr (Option ℚ)) (dy : ℚ) : Arr (Option ℚ) :=
  mapA (fun x => A.fl (x / A.fl (8 * dy)))
    (zip (fun x y => A.fl (x - y))
      (zip (fun x y => A.fl (x + y)) (zip (fun x y => A.fl (x + y)) (mapA (fun x => A.fl (2 * x)) (win D 2 1)) (win D 2 2)) (win D 2 0))
      (zip (fun x y => A.fl (x + y)) (zip (fun x y => A.fl (x + y)) (mapA (fun x => A.fl (2 * x)) (win D 0 1)) (win D 0 0)) (win D 0 2)))

/-- `_grad` (misc.py 73-81). -/
def gradF (D : Arr (Option ℚ)) (dx dy : ℚ) : Arr (Option ℚ) × Arr (Option ℚ) := (padNaN (ddxF A D dx), padNaN (ddyF A D dy))

/-- `gradient` (misc.py 83-101): missing cells are masked by means of the original values, and the others cast to single precision. -/
def gradientF (g : FGrid ℚ) (band : Nat) : Except Err (FGrid ℚ × FGrid ℚ) :=
  if g.sx = 0 ∧ g.sy = 0 then
    match masked g band with
    | .error e => .error e
    | .ok D => .ok (g.with (gradF A (mapA S.fl D) g.dx g.dy).1, g.with (gradF A (mapA S.fl D) g.dx g.dy).2)
  else .error .notImplemented

/-! ### Specification -/

/-- The 3x3 cells around row `i`, column `j` lie in the band `b` and hold the numbers `val`. -/
def Around (g : FGrid ℚ) (b : Arr (Option ℚ)) (i j : Nat) (val : Nat → Nat → ℚ) : Prop :=
  1 ≤ i ∧ i + 1 < b.ny ∧ 1 ≤ j ∧ j + 1 < b.nx ∧
    ∀ r c, i - 1 ≤ r → r ≤ i + 1 → j - 1 ≤ c → c ≤ j + 1 → g.IsData r c ∧ b.get r c = some (val r c)

/-- The slope to the east at row `i`, column `j`, from the columns on either side. -/
def slopeX (val : Nat → Nat → ℚ) (dx : ℚ) (i j : Nat) : ℚ :=
  (2 * val i (j + 1) + val (i - 1) (j + 1) + val (i + 1) (j + 1) - (2 * val i (j - 1) + val (i - 1) (j - 1) + val (i + 1) (j - 1))) / (8 * dx)

/-- The slope along the columns, from the rows on either side. -/
def slopeY (val : Nat → Nat → ℚ) (dy : ℚ) (i j : Nat) : ℚ :=
  (2 * val (i + 1) j + val (i + 1) (j + 1) + val (i + 1) (j - 1) - (2 * val (i - 1) j + val (i - 1) (j - 1) + val (i - 1) (j + 1))) / (8 * dy)

/-- Double precision is at least as precise as single precision. -/
def wide (R : Rounding) : Single where
  fl := R.fl
  mono := R.mono
  err x := (R.err x).trans (mul_le_mul_of_nonneg_right (by norm_num) (abs_nonneg _))
  exact m k h := R.exact m k (h.trans (by norm_num))

/-! ### Lemmas -/

/-- Six values combined as the kernels do. -/
def sixF (h a b c d e f : ℚ) : ℚ :=
  A.fl (A.fl (A.fl (A.fl (A.fl (2 * a) + b) + c) - A.fl (A.fl (A.fl (2 * d) + e) + f)) / A.fl (8 * h))

/-- The same for values that may be missing. -/
def sixO (h : ℚ) (a b c d e f : Option ℚ) : Option ℚ :=
  (lift2 (fun x y => A.fl (x - y)) (lift2 (fun x y => A.fl (x + y)) (lift2 (fun x y => A.fl (x + y)) (a.map fun x => A.fl (2 * x)) b) c)
    (lift2 (fun x y => A.fl (x + y)) (lift2 (fun x y => A.fl (x + y)) (d.map fun x => A.fl (2 * x)) e) f)).map fun x => A.fl (x / A.fl (8 * h))

variable {S A}

theorem sixO_some (h a b c d e f : ℚ) : sixO A h (some a) (some b) (some c) (some d) (some e) (some f) = some (sixF A h a b c d e f) := rfl

theorem sixO_none {h : ℚ} {a b c d e f : Option ℚ} : sixO A h a b c d e f = none ↔
    a = none ∨ b = none ∨ c = none ∨ d = none ∨ e = none ∨ f = none := by
  cases a <;> cases b <;> cases c <;> cases d <;> cases e <;> cases f <;> simp [sixO, lift2]

theorem ddxF_ny (D : Arr (Option ℚ)) (h : ℚ) : (ddxF A D h).ny = D.ny - 2 := win_ny (r := 1) (c := 2) D (by omega)
theorem ddxF_nx (D : Arr (Option ℚ)) (h : ℚ) : (ddxF A D h).nx = D.nx - 2 := win_nx (r := 1) (c := 2) D (by omega)
theorem ddyF_ny (D : Arr (Option ℚ)) (h : ℚ) : (ddyF A D h).ny = D.ny - 2 := win_ny (r := 2) (c := 1) D (by omega)
theorem ddyF_nx (D : Arr (Option ℚ)) (h : ℚ) : (ddyF A D h).nx = D.nx - 2 := win_nx (r := 2) (c := 1) D (by omega)

theorem ddxF_get (D : Arr (Option ℚ)) (h : ℚ) {i j : Nat} (hi : i + 2 < D.ny) (hj : j + 2 < D.nx) :
    (ddxF A D h).get i j = sixO A h (D.get (i + 1) (j + 2)) (D.get i (j + 2)) (D.get (i + 2) (j + 2))
      (D.get (i + 1) j) (D.get i j) (D.get (i + 2) j) := by
  unfold ddxF sixO
  simp only [mapA, Arr.map, zip]
  rw [win_get D (by omega) (by omega), win_get D (by omega) (by omega), win_get D (by omega) (by omega),
    win_get D (by omega) (by omega), win_get D (by omega) (by omega), win_get D (by omega) (by omega)]
  simp only [Nat.add_comm _ i, Nat.add_comm _ j, Nat.add_zero]

theorem ddyF_get (D : Arr (Option ℚ)) (h : ℚ) {i j : Nat} (hi : i + 2 < D.ny) (hj : j + 2 < D.nx) :
    (ddyF A D h).get i j = sixO A h (D.get (i + 2) (j + 1)) (D.get (i + 2) (j + 2)) (D.get (i + 2) j)
      (D.get i (j + 1)) (D.get i j) (D.get i (j + 2)) := by
  unfold ddyF sixO
  simp only [mapA, Arr.map, zip]
  rw [win_get D (by omega) (by omega), win_get D (by omega) (by omega), win_get D (by omega) (by omega),
    win_get D (by omega) (by omega), win_get D (by omega) (by omega), win_get D (by omega) (by omega)]
  simp only [Nat.add_comm _ i, Nat.add_comm _ j, Nat.add_zero]

theorem gradXF_get (D : Arr (Option ℚ)) (h k : ℚ) {i j : Nat} (hi : 1 ≤ i) (hi' : i + 1 < D.ny) (hj : 1 ≤ j) (hj' : j + 1 < D.nx) :
    (gradF A D h k).1.get i j = sixO A h (D.get i (j + 1)) (D.get (i - 1) (j + 1)) (D.get (i + 1) (j + 1))
      (D.get i (j - 1)) (D.get (i - 1) (j - 1)) (D.get (i + 1) (j - 1)) := by
  unfold gradF padNaN
  simp only [ddxF_ny, ddxF_nx]
  rw [if_pos (by omega), ddxF_get D h (by omega) (by omega)]
  have e1 : i - 1 + 1 = i := by omega
  have e2 : i - 1 + 2 = i + 1 := by omega
  have e3 : j - 1 + 2 = j + 1 := by omega
  rw [e1, e2, e3]

theorem gradYF_get (D : Arr (Option ℚ)) (h k : ℚ) {i j : Nat} (hi : 1 ≤ i) (hi' : i + 1 < D.ny) (hj : 1 ≤ j) (hj' : j + 1 < D.nx) :
    (gradF A D h k).2.get i j = sixO A k (D.get (i + 1) j) (D.get (i + 1) (j + 1)) (D.get (i + 1) (j - 1))
      (D.get (i - 1) j) (D.get (i - 1) (j - 1)) (D.get (i - 1) (j + 1)) := by
  unfold gradF padNaN
  simp only [ddyF_ny, ddyF_nx]
  rw [if_pos (by omega), ddyF_get D k (by omega) (by omega)]
  have e1 : j - 1 + 1 = j := by omega
  have e2 : i - 1 + 2 = i + 1 := by omega
  have e3 : j - 1 + 2 = j + 1 := by omega
  rw [e1, e2, e3]

theorem gradF_border (D : Arr (Option ℚ)) (h k : ℚ) {i j : Nat} (hb : i = 0 ∨ D.ny ≤ i + 1 ∨ j = 0 ∨ D.nx ≤ j + 1) :
    (gradF A D h k).1.get i j = none ∧ (gradF A D h k).2.get i j = none := by
  unfold gradF padNaN
  simp only [ddyF_ny, ddyF_nx, ddxF_ny, ddxF_nx]
  rw [if_neg (by omega), if_neg (by omega)]
  exact ⟨rfl, rfl⟩

theorem gradF_size (D : Arr (Option ℚ)) (h k : ℚ) :
    (gradF A D h k).1.ny = D.ny - 2 + 2 ∧ (gradF A D h k).1.nx = D.nx - 2 + 2 ∧
    (gradF A D h k).2.ny = D.ny - 2 + 2 ∧ (gradF A D h k).2.nx = D.nx - 2 + 2 := by
  unfold gradF padNaN
  simp only [ddyF_ny, ddyF_nx, ddxF_ny, ddxF_nx]
  exact ⟨trivial, trivial, trivial, trivial⟩

theorem gradientF_cell {g : FGrid ℚ} {k : Nat} {b : Arr (Option ℚ)} (hb : g.bands[k]? = some b) (hs : g.sx = 0 ∧ g.sy = 0) {i j : Nat}
    {val : Nat → Nat → ℚ} (h : Around g b i j val) : ∃ gx gy, gradientF S A g k = .ok (gx, gy) ∧
      gx.px 0 i j = some (sixF A g.dx (S.fl (val i (j + 1))) (S.fl (val (i - 1) (j + 1))) (S.fl (val (i + 1) (j + 1)))
        (S.fl (val i (j - 1))) (S.fl (val (i - 1) (j - 1))) (S.fl (val (i + 1) (j - 1)))) ∧
      gy.px 0 i j = some (sixF A g.dy (S.fl (val (i + 1) j)) (S.fl (val (i + 1) (j + 1))) (S.fl (val (i + 1) (j - 1)))
        (S.fl (val (i - 1) j)) (S.fl (val (i - 1) (j - 1))) (S.fl (val (i - 1) (j + 1)))) := by
  obtain ⟨i1, i2, j1, j2, hval⟩ := h
  obtain ⟨D, hD, hny, hnx, hdat, _⟩ := masked_ok hb
  have hv : ∀ r c, i - 1 ≤ r → r ≤ i + 1 → j - 1 ≤ c → c ≤ j + 1 → (mapA S.fl D).get r c = some (S.fl (val r c)) := fun r c h1 h2 h3 h4 => by
    show (D.get r c).map S.fl = _
    rw [hdat r c (hval r c h1 h2 h3 h4).1, (hval r c h1 h2 h3 h4).2]; rfl
  obtain ⟨s1, s2, s3, s4⟩ := gradF_size (A := A) (mapA S.fl D) g.dx g.dy
  have n1 : (mapA S.fl D).ny = b.ny := hny
  have n2 : (mapA S.fl D).nx = b.nx := hnx
  have hg : gradientF S A g k = .ok (g.with (gradF A (mapA S.fl D) g.dx g.dy).1, g.with (gradF A (mapA S.fl D) g.dx g.dy).2) := by
    unfold gradientF
    rw [if_pos hs, hD]
  refine ⟨_, _, hg, ?_, ?_⟩
  · rw [with_px, if_pos (by omega), gradXF_get _ g.dx g.dy i1 (by omega) j1 (by omega),
      hv _ _ (by omega) (by omega) (by omega) (by omega), hv _ _ (by omega) (by omega) (by omega) (by omega),
      hv _ _ (by omega) (by omega) (by omega) (by omega), hv _ _ (by omega) (by omega) (by omega) (by omega),
      hv _ _ (by omega) (by omega) (by omega) (by omega), hv _ _ (by omega) (by omega) (by omega) (by omega), sixO_some]
  · rw [with_px, if_pos (by omega), gradYF_get _ g.dx g.dy i1 (by omega) j1 (by omega),
      hv _ _ (by omega) (by omega) (by omega) (by omega), hv _ _ (by omega) (by omega) (by omega) (by omega),
      hv _ _ (by omega) (by omega) (by omega) (by omega), hv _ _ (by omega) (by omega) (by omega) (by omega),
      hv _ _ (by omega) (by omega) (by omega) (by omega), hv _ _ (by omega) (by omega) (by omega) (by omega), sixO_some]

/-! Errors -/

/-- The relative error after `n` roundings. -/
def grow (n : ℕ) : ℚ := (1 + 1 / 2 ^ 24) ^ n - 1

theorem grow_nonneg (n : ℕ) : 0 ≤ grow n := by
  unfold grow
  have : (1 : ℚ) ≤ (1 + 1 / 2 ^ 24) ^ n := one_le_pow₀ (by norm_num)
  linarith

theorem grow_succ (n : ℕ) : grow (n + 1) = (1 + 1 / 2 ^ 24) * grow n + 1 / 2 ^ 24 := by
  unfold grow; rw [pow_succ]; ring

theorem grow_mono {m n : ℕ} (h : m ≤ n) : grow m ≤ grow n := by
  unfold grow
  have : ((1 : ℚ) + 1 / 2 ^ 24) ^ m ≤ (1 + 1 / 2 ^ 24) ^ n := pow_le_pow_right₀ (by norm_num) h
  linarith

theorem fl_grow {n : ℕ} {X x M : ℚ} (h : |X - x| ≤ grow n * M) (hx : |x| ≤ M) : |A.fl X - x| ≤ grow (n + 1) * M := by
  have e := A.err X
  have t : |A.fl X - x| ≤ |A.fl X - X| + |X - x| := by
    have := abs_add_le (A.fl X - X) (X - x)
    rwa [sub_add_sub_cancel] at this
  have a : |X| ≤ |X - x| + |x| := by
    have := abs_add_le (X - x) x
    rwa [sub_add_cancel] at this
  rw [grow_succ]
  have u : (0 : ℚ) ≤ 1 / 2 ^ 24 := by norm_num
  nlinarith [mul_le_mul_of_nonneg_left a u, mul_le_mul_of_nonneg_left h u, mul_le_mul_of_nonneg_left hx u]

theorem add_grow {m n : ℕ} (hmn : n ≤ m) {X x M Y y N : ℚ} (h : |X - x| ≤ grow m * M) (hx : |x| ≤ M) (k : |Y - y| ≤ grow n * N)
    (hy : |y| ≤ N) : |X + Y - (x + y)| ≤ grow m * (M + N) ∧ |x + y| ≤ M + N := by
  have hN : 0 ≤ N := le_trans (abs_nonneg _) hy
  constructor
  · have t := abs_add_le (X - x) (Y - y)
    rw [show X - x + (Y - y) = X + Y - (x + y) by ring] at t
    have b := mul_le_mul_of_nonneg_right (grow_mono hmn) hN
    rw [mul_add]; linarith
  · exact le_trans (abs_add_le x y) (by linarith)

theorem sum_grow (a b c : ℚ) :
    |A.fl (A.fl (A.fl (2 * S.fl a) + S.fl b) + S.fl c) - (2 * a + b + c)| ≤ grow 4 * (2 * |a| + |b| + |c|) ∧
      |2 * a + b + c| ≤ 2 * |a| + |b| + |c| := by
  have one : ∀ x : ℚ, |S.fl x - x| ≤ grow 1 * |x| := fun x => by
    have := S.err x
    unfold grow; norm_num at this ⊢; exact this
  have e1 : |2 * S.fl a - 2 * a| ≤ grow 1 * (2 * |a|) := by
    have := one a
    rw [← mul_sub, abs_mul, abs_of_pos (by norm_num : (0 : ℚ) < 2)]; linarith
  have m1 : |2 * a| ≤ 2 * |a| := by rw [abs_mul, abs_of_pos (by norm_num : (0 : ℚ) < 2)]
  have e2 := fl_grow (A := A) e1 m1
  obtain ⟨e3, m3⟩ := add_grow (by omega) e2 m1 (one b) le_rfl
  have e4 := fl_grow (A := A) e3 m3
  obtain ⟨e5, m5⟩ := add_grow (by omega) e4 m3 (one c) le_rfl
  exact ⟨fl_grow (A := A) e5 m5, m5⟩

theorem six_grow (h a b c d e f : ℚ) (hh : h ≠ 0) :
    |sixF A h (S.fl a) (S.fl b) (S.fl c) (S.fl d) (S.fl e) (S.fl f) - (2 * a + b + c - (2 * d + e + f)) / (8 * h)| ≤
      9 / 2 ^ 24 * ((2 * |a| + |b| + |c| + (2 * |d| + |e| + |f|)) / (8 * |h|)) := by
  obtain ⟨p1, p2⟩ := sum_grow (S := S) (A := A) a b c
  obtain ⟨q1, q2⟩ := sum_grow (S := S) (A := A) d e f
  obtain ⟨r1, r2⟩ := add_grow (m := 4) (n := 4) (by omega) p1 p2
    (Y := -A.fl (A.fl (A.fl (2 * S.fl d) + S.fl e) + S.fl f)) (y := -(2 * d + e + f)) (N := 2 * |d| + |e| + |f|)
    (by rw [neg_sub_neg, abs_sub_comm]; exact q1) (by rw [abs_neg]; exact q2)
  rw [← sub_eq_add_neg, ← sub_eq_add_neg] at r1
  rw [← sub_eq_add_neg] at r2
  have s1 := fl_grow (A := A) r1 r2
  unfold sixF
  set X := A.fl (A.fl (A.fl (A.fl (2 * S.fl a) + S.fl b) + S.fl c) - A.fl (A.fl (A.fl (2 * S.fl d) + S.fl e) + S.fl f)) with hX
  set x := 2 * a + b + c - (2 * d + e + f) with hx
  set M := 2 * |a| + |b| + |c| + (2 * |d| + |e| + |f|) with hM
  have hM0 : 0 ≤ M := le_trans (abs_nonneg _) r2
  set w := 8 * h with hw
  have w0 : w ≠ 0 := by rw [hw]; positivity
  have wp : 0 < |w| := abs_pos.2 w0
  have ew : 8 * |h| = |w| := by rw [hw, abs_mul, abs_of_pos (by norm_num : (0 : ℚ) < 8)]
  rw [ew]
  have er := A.err w
  have lo : (1 - 1 / 2 ^ 24) * |w| ≤ |A.fl w| := by
    have := abs_sub_abs_le_abs_sub w (A.fl w)
    rw [abs_sub_comm] at this
    linarith
  have Wp : 0 < |A.fl w| := lt_of_lt_of_le (by positivity) lo
  have W0 : A.fl w ≠ 0 := abs_pos.1 Wp
  have t : |X / A.fl w - x / w| ≤ grow 7 * (M / |w|) := by
    have e : X / A.fl w - x / w = ((X - x) * w + x * (w - A.fl w)) / (A.fl w * w) := by field_simp; ring
    rw [e, abs_div, abs_mul, div_le_iff₀ (by positivity)]
    have u1 : |(X - x) * w + x * (w - A.fl w)| ≤ grow 5 * M * |w| + M * (1 / 2 ^ 24 * |w|) := by
      refine (abs_add_le _ _).trans ?_
      rw [abs_mul (X - x) w, abs_mul x (w - A.fl w)]
      rw [abs_sub_comm] at er
      exact add_le_add (mul_le_mul_of_nonneg_right s1 (abs_nonneg _)) (mul_le_mul r2 er (abs_nonneg _) hM0)
    refine u1.trans ?_
    have e2 : grow 7 * (M / |w|) * (|A.fl w| * |w|) = grow 7 * M * |A.fl w| := by field_simp
    rw [e2]
    have u2 := mul_le_mul_of_nonneg_left lo (mul_nonneg (grow_nonneg 7) hM0)
    refine le_trans ?_ u2
    have u3 : grow 5 + 1 / 2 ^ 24 ≤ grow 7 * (1 - 1 / 2 ^ 24) := by unfold grow; norm_num
    have := mul_le_mul_of_nonneg_right u3 (mul_nonneg hM0 (abs_nonneg w))
    nlinarith
  have m : |x / w| ≤ M / |w| := by rw [abs_div]; exact div_le_div_of_nonneg_right r2 wp.le
  refine (fl_grow (A := A) t m).trans (mul_le_mul_of_nonneg_right ?_ (by positivity))
  unfold grow; norm_num

/-! Signs -/

theorem fl_zero : A.fl 0 = 0 := by
  have := A.exact 0 0 (by norm_num)
  simpa using this

theorem fl_nonneg {x : ℚ} (h : 0 ≤ x) : 0 ≤ A.fl x := by
  have := A.mono h
  rwa [fl_zero] at this

theorem fl_nonpos {x : ℚ} (h : x ≤ 0) : A.fl x ≤ 0 := by
  have := A.mono h
  rwa [fl_zero] at this

theorem sum_mono {a b c d e f : ℚ} (h1 : a ≤ d) (h2 : b ≤ e) (h3 : c ≤ f) :
    A.fl (A.fl (A.fl (2 * a) + b) + c) ≤ A.fl (A.fl (A.fl (2 * d) + e) + f) :=
  A.mono (add_le_add (A.mono (add_le_add (A.mono (by linarith)) h2)) h3)

theorem sixF_nonneg {h a b c d e f : ℚ} (h1 : d ≤ a) (h2 : e ≤ b) (h3 : f ≤ c) : 0 ≤ sixF A h a b c d e f * h := by
  have hs : 0 ≤ A.fl (A.fl (A.fl (A.fl (2 * a) + b) + c) - A.fl (A.fl (A.fl (2 * d) + e) + f)) :=
    fl_nonneg (sub_nonneg.2 (sum_mono h1 h2 h3))
  unfold sixF
  rcases le_total 0 h with hh | hh
  · exact mul_nonneg (fl_nonneg (div_nonneg hs (fl_nonneg (by linarith)))) hh
  · exact mul_nonneg_of_nonpos_of_nonpos (fl_nonpos (div_nonpos_of_nonneg_of_nonpos hs (fl_nonpos (by linarith)))) hh

theorem sixF_nonpos {h a b c d e f : ℚ} (h1 : a ≤ d) (h2 : b ≤ e) (h3 : c ≤ f) : sixF A h a b c d e f * h ≤ 0 := by
  have hs : A.fl (A.fl (A.fl (A.fl (2 * a) + b) + c) - A.fl (A.fl (A.fl (2 * d) + e) + f)) ≤ 0 :=
    fl_nonpos (sub_nonpos.2 (sum_mono h1 h2 h3))
  unfold sixF
  rcases le_total 0 h with hh | hh
  · exact mul_nonpos_of_nonpos_of_nonneg (fl_nonpos (div_nonpos_of_nonpos_of_nonneg hs (fl_nonneg (by linarith)))) hh
  · exact mul_nonpos_of_nonneg_of_nonpos (fl_nonneg (div_nonneg_of_nonpos hs (fl_nonpos (by linarith)))) hh

/-! Units -/

theorem unit_exact {k B : ℤ} {x : ℚ} (h : InUnits k B x) (hB : B ≤ 2 ^ 24) : A.fl x = x := by
  obtain ⟨n, hn, rfl⟩ := h
  exact A.exact n k (hn.trans hB)

theorem sum_units {k : ℤ} {a b c : ℚ} (ha : InUnits k (2 ^ 21) a) (hb : InUnits k (2 ^ 21) b) (hc : InUnits k (2 ^ 21) c) :
    A.fl (A.fl (A.fl (2 * S.fl a) + S.fl b) + S.fl c) = 2 * a + b + c ∧ InUnits k (2 ^ 23) (2 * a + b + c) := by
  have u1 : InUnits k (2 ^ 22) (2 * a) := by
    have := (ha.add ha).mono (C := 2 ^ 22) (by norm_num)
    rwa [← two_mul] at this
  have u2 := (u1.add hb).mono (C := 2 ^ 23) (by norm_num)
  have u3 := (u1.add (hb.add hc)).mono (C := 2 ^ 23) (by norm_num)
  rw [← add_assoc] at u3
  rw [unit_exact ha (by norm_num), unit_exact hb (by norm_num), unit_exact hc (by norm_num), unit_exact u1 (by norm_num),
    unit_exact u2 (by norm_num), unit_exact u3 (by norm_num)]
  exact ⟨rfl, u3⟩

theorem six_units {k l : ℤ} {h a b c d e f : ℚ} (ha : InUnits k (2 ^ 21) a) (hb : InUnits k (2 ^ 21) b) (hc : InUnits k (2 ^ 21) c)
    (hd : InUnits k (2 ^ 21) d) (he : InUnits k (2 ^ 21) e) (hf : InUnits k (2 ^ 21) f) (hh : InUnits l (2 ^ 24) h) :
    sixF A h (S.fl a) (S.fl b) (S.fl c) (S.fl d) (S.fl e) (S.fl f) = A.fl ((2 * a + b + c - (2 * d + e + f)) / (8 * h)) := by
  obtain ⟨p1, p2⟩ := sum_units (S := S) (A := A) ha hb hc
  obtain ⟨q1, q2⟩ := sum_units (S := S) (A := A) hd he hf
  have u := (p2.sub q2).mono (C := 2 ^ 24) (by norm_num)
  have w : A.fl (8 * h) = 8 * h := by
    obtain ⟨n, hn, rfl⟩ := hh
    have e : (8 : ℚ) * (n * 2 ^ l) = n * 2 ^ (l + 3) := by
      rw [zpow_add₀ (by norm_num)]; norm_num; ring
    rw [e]
    exact A.exact n (l + 3) hn
  unfold sixF
  rw [p1, q1, unit_exact u (by norm_num), w]

/-! ### C173 -/

/-- C173.  The cast and the rounded arithmetic change each component of the gradient by at most nine units of single precision, relative to the
magnitudes of the elevations it is computed from. -/
theorem C173_error {g : FGrid ℚ} {k : Nat} {b : Arr (Option ℚ)} (hb : g.bands[k]? = some b) (hs : g.sx = 0 ∧ g.sy = 0)
    (hdx : g.dx ≠ 0) (hdy : g.dy ≠ 0) {i j : Nat} {val : Nat → Nat → ℚ} (h : Around g b i j val) (M : ℚ) (hM : ∀ r c, |val r c| ≤ M) :
    ∃ gx gy u v, gradientF S A g k = .ok (gx, gy) ∧ gx.px 0 i j = some u ∧ gy.px 0 i j = some v ∧
      |u - slopeX val g.dx i j| ≤ 9 / 2 ^ 24 * (M / |g.dx|) ∧ |v - slopeY val g.dy i j| ≤ 9 / 2 ^ 24 * (M / |g.dy|) := by
  obtain ⟨gx, gy, e, ex, ey⟩ := gradientF_cell (S := S) (A := A) hb hs h
  refine ⟨gx, gy, _, _, e, ex, ey, ?_, ?_⟩
  · refine (six_grow g.dx _ _ _ _ _ _ hdx).trans (mul_le_mul_of_nonneg_left ?_ (by norm_num))
    rw [div_le_div_iff₀ (by positivity) (by positivity)]
    have := abs_pos.2 hdx
    nlinarith [hM i (j + 1), hM (i - 1) (j + 1), hM (i + 1) (j + 1), hM i (j - 1), hM (i - 1) (j - 1), hM (i + 1) (j - 1)]
  · refine (six_grow g.dy _ _ _ _ _ _ hdy).trans (mul_le_mul_of_nonneg_left ?_ (by norm_num))
    rw [div_le_div_iff₀ (by positivity) (by positivity)]
    have := abs_pos.2 hdy
    nlinarith [hM (i + 1) j, hM (i + 1) (j + 1), hM (i + 1) (j - 1), hM (i - 1) j, hM (i - 1) (j - 1), hM (i - 1) (j + 1)]

/-- C173.  The first component never points the wrong way: where the surface does not fall from the column before to the column after in any of the
three rows, it is not negative in that direction; where it does not rise, not positive.  Where both columns agree it is zero. -/
theorem C173_sign_x {g : FGrid ℚ} {k : Nat} {b : Arr (Option ℚ)} (hb : g.bands[k]? = some b) (hs : g.sx = 0 ∧ g.sy = 0) (hdx : g.dx ≠ 0)
    {i j : Nat} {val : Nat → Nat → ℚ} (h : Around g b i j val) : ∃ gx gy u, gradientF S A g k = .ok (gx, gy) ∧ gx.px 0 i j = some u ∧
      ((∀ r, i - 1 ≤ r → r ≤ i + 1 → val r (j - 1) ≤ val r (j + 1)) → 0 ≤ u * g.dx) ∧
      ((∀ r, i - 1 ≤ r → r ≤ i + 1 → val r (j + 1) ≤ val r (j - 1)) → u * g.dx ≤ 0) ∧
      ((∀ r, i - 1 ≤ r → r ≤ i + 1 → val r (j + 1) = val r (j - 1)) → u = 0) := by
  obtain ⟨gx, gy, e, ex, -⟩ := gradientF_cell (S := S) (A := A) hb hs h
  have up : (∀ r, i - 1 ≤ r → r ≤ i + 1 → val r (j - 1) ≤ val r (j + 1)) → _ := fun q =>
    sixF_nonneg (A := A) (h := g.dx) (S.mono (q i (by omega) (by omega))) (S.mono (q (i - 1) (by omega) (by omega))) (S.mono (q (i + 1) (by omega) (by omega)))
  have down : (∀ r, i - 1 ≤ r → r ≤ i + 1 → val r (j + 1) ≤ val r (j - 1)) → _ := fun q =>
    sixF_nonpos (A := A) (h := g.dx) (S.mono (q i (by omega) (by omega))) (S.mono (q (i - 1) (by omega) (by omega))) (S.mono (q (i + 1) (by omega) (by omega)))
  refine ⟨gx, gy, _, e, ex, up, down, fun q => ?_⟩
  have z := le_antisymm (down fun r h1 h2 => (q r h1 h2).le) (up fun r h1 h2 => (q r h1 h2).ge)
  exact (mul_eq_zero.1 z).resolve_right hdx

/-- C173.  The second component never points the wrong way where the surface is nowhere higher in the row before than in the row after.

Missing: surfaces that rise in each of the three columns but cross each other's heights, for which it is false (below). -/
theorem C173_sign_y_partial {g : FGrid ℚ} {k : Nat} {b : Arr (Option ℚ)} (hb : g.bands[k]? = some b) (hs : g.sx = 0 ∧ g.sy = 0) {i j : Nat}
    {val : Nat → Nat → ℚ} (h : Around g b i j val) : ∃ gx gy v, gradientF S A g k = .ok (gx, gy) ∧ gy.px 0 i j = some v ∧
      ((∀ c d, j - 1 ≤ c → c ≤ j + 1 → j - 1 ≤ d → d ≤ j + 1 → val (i - 1) c ≤ val (i + 1) d) → 0 ≤ v * g.dy) ∧
      ((∀ c d, j - 1 ≤ c → c ≤ j + 1 → j - 1 ≤ d → d ≤ j + 1 → val (i + 1) d ≤ val (i - 1) c) → v * g.dy ≤ 0) := by
  obtain ⟨gx, gy, e, -, ey⟩ := gradientF_cell (S := S) (A := A) hb hs h
  refine ⟨gx, gy, _, e, ey, fun q => ?_, fun q => ?_⟩
  · exact sixF_nonneg (S.mono (q _ _ (by omega) (by omega) (by omega) (by omega))) (S.mono (q _ _ (by omega) (by omega) (by omega) (by omega)))
      (S.mono (q _ _ (by omega) (by omega) (by omega) (by omega)))
  · exact sixF_nonpos (S.mono (q _ _ (by omega) (by omega) (by omega) (by omega))) (S.mono (q _ _ (by omega) (by omega) (by omega) (by omega)))
      (S.mono (q _ _ (by omega) (by omega) (by omega) (by omega)))

/-- C173.  As far as the elevations are whole numbers of units of a power of two, at most `2 ^ 21` of them, and the cell sizes have 24 bits, each
component is the exact one, rounded once. -/
theorem C173_units_partial {g : FGrid ℚ} {k : Nat} {b : Arr (Option ℚ)} (hb : g.bands[k]? = some b) (hs : g.sx = 0 ∧ g.sy = 0) {l m n : ℤ}
    (hdx : InUnits m (2 ^ 24) g.dx) (hdy : InUnits n (2 ^ 24) g.dy) {i j : Nat} {val : Nat → Nat → ℚ} (h : Around g b i j val)
    (hu : ∀ r c, InUnits l (2 ^ 21) (val r c)) :
    ∃ gx gy, gradientF S A g k = .ok (gx, gy) ∧ gx.px 0 i j = some (A.fl (slopeX val g.dx i j)) ∧ gy.px 0 i j = some (A.fl (slopeY val g.dy i j)) := by
  obtain ⟨gx, gy, e, ex, ey⟩ := gradientF_cell (S := S) (A := A) hb hs h
  refine ⟨gx, gy, e, ?_, ?_⟩
  · rw [ex, six_units (hu _ _) (hu _ _) (hu _ _) (hu _ _) (hu _ _) (hu _ _) hdx]; rfl
  · rw [ey, six_units (hu _ _) (hu _ _) (hu _ _) (hu _ _) (hu _ _) (hu _ _) hdy]; rfl

/-- C173.  Under the same conditions, adding a constant to the elevations does not change the gradient. -/
theorem C173_offset_partial {g g' : FGrid ℚ} {k k' : Nat} {b b' : Arr (Option ℚ)} (hb : g.bands[k]? = some b) (hb' : g'.bands[k']? = some b')
    (hs : g.sx = 0 ∧ g.sy = 0) (hs' : g'.sx = 0 ∧ g'.sy = 0) (hx : g'.dx = g.dx) (hy : g'.dy = g.dy) {l m n : ℤ}
    (hdx : InUnits m (2 ^ 24) g.dx) (hdy : InUnits n (2 ^ 24) g.dy) {i j : Nat} {val : Nat → Nat → ℚ} {c : ℚ} (h : Around g b i j val)
    (h' : Around g' b' i j fun r q => val r q + c) (hu : ∀ r q, InUnits l (2 ^ 21) (val r q)) (hu' : ∀ r q, InUnits l (2 ^ 21) (val r q + c)) :
    ∃ gx gy gx' gy' u v, gradientF S A g k = .ok (gx, gy) ∧ gradientF S A g' k' = .ok (gx', gy') ∧ gx.px 0 i j = some u ∧ gx'.px 0 i j = some u ∧
      gy.px 0 i j = some v ∧ gy'.px 0 i j = some v := by
  obtain ⟨gx, gy, e, ex, ey⟩ := C173_units_partial (S := S) (A := A) hb hs hdx hdy h hu
  obtain ⟨gx', gy', e', ex', ey'⟩ := C173_units_partial (S := S) (A := A) hb' hs' (hx ▸ hdx) (hy ▸ hdy) h' hu'
  refine ⟨gx, gy, gx', gy', _, _, e, e', ex, ?_, ey, ?_⟩
  · rw [ex', hx]; unfold slopeX; ring_nf
  · rw [ey', hy]; unfold slopeY; ring_nf

/-- C173.  Rounding does not change where values are missing, nor which grids are refused, nor the place of the result. -/
theorem C173_missing (g : FGrid ℚ) (k : Nat) :
    (∃ e, gradient g k = .error e ∧ gradientF S A g k = .error e) ∨
      ∃ gx gy fx fy, gradient g k = .ok (gx, gy) ∧ gradientF S A g k = .ok (fx, fy) ∧ fx.SamePlace g ∧ fy.SamePlace g ∧
        ∀ i j, (fx.px 0 i j = none ↔ gx.px 0 i j = none) ∧ (fy.px 0 i j = none ↔ gy.px 0 i j = none) := by
  by_cases hs : g.sx = 0 ∧ g.sy = 0
  · cases hD : masked g k with
    | error e => exact .inl ⟨e, by unfold gradient; rw [if_pos hs, hD], by unfold gradientF; rw [if_pos hs, hD]⟩
    | ok D =>
      refine .inr ⟨_, _, g.with (gradF A (mapA S.fl D) g.dx g.dy).1, g.with (gradF A (mapA S.fl D) g.dx g.dy).2, gradient_ok hs hD,
        by unfold gradientF; rw [if_pos hs, hD], ⟨rfl, rfl, rfl, rfl, rfl, rfl⟩, ⟨rfl, rfl, rfl, rfl, rfl, rfl⟩, fun i j => ?_⟩
      obtain ⟨s1, s2, s3, s4⟩ := gradF_size (A := A) (mapA S.fl D) g.dx g.dy
      obtain ⟨t1, t2, t3, t4⟩ := grad_size D g.dx g.dy
      have n1 : (mapA S.fl D).ny = D.ny := rfl
      have n2 : (mapA S.fl D).nx = D.nx := rfl
      have hm : ∀ r c, (mapA S.fl D).get r c = none ↔ D.get r c = none := fun r c => by
        show (D.get r c).map S.fl = none ↔ _
        rw [Option.map_eq_none_iff]
      rw [with_px, with_px, with_px, with_px, s1, s2, s3, s4, t1, t2, t3, t4, n1, n2]
      by_cases hb : i = 0 ∨ D.ny ≤ i + 1 ∨ j = 0 ∨ D.nx ≤ j + 1
      · obtain ⟨b1, b2⟩ := gradF_border (A := A) (mapA S.fl D) g.dx g.dy (i := i) (j := j) hb
        obtain ⟨c1, c2⟩ := grad_border D g.dx g.dy (i := i) (j := j) hb
        rw [b1, b2, c1, c2]
        exact ⟨Iff.rfl, Iff.rfl⟩
      · push Not at hb
        have hin : i < D.ny - 2 + 2 ∧ j < D.nx - 2 + 2 := by omega
        rw [if_pos hin, if_pos hin, if_pos hin, if_pos hin, gradXF_get _ _ _ (by omega) (by omega) (by omega) (by omega),
          gradYF_get _ _ _ (by omega) (by omega) (by omega) (by omega), gradX_get _ _ _ (by omega) (by omega) (by omega) (by omega),
          gradY_get _ _ _ (by omega) (by omega) (by omega) (by omega), sixO_none, sixO_none, six_none, six_none]
        simp only [hm, and_self]
  · exact .inl ⟨.notImplemented, by unfold gradient; rw [if_neg hs], by unfold gradientF; rw [if_neg hs]⟩

/-- Three by three cells of size 1 with the same three values in each row. -/
def corrugated (w m e : ℚ) : FGrid ℚ := ⟨0, 0, 1, 1, 0, 0, [⟨3, 3, fun _ c => some (if c = 0 then w else if c = 1 then m else e)⟩], none⟩

/-- The number in the middle of a grid, for either component of a gradient. -/
def middle : Except Err (FGrid ℚ × FGrid ℚ) → Option ℚ × Option ℚ
  | .ok (gx, gy) => (gx.px 0 1 1, gy.px 0 1 1)
  | .error _ => (none, none)

/-- C173 is violated: elevations that differ from column to column only get a slope along the columns, in single precision.  The two sides are
added up in different orders. -/
theorem C173_violated_sign_y : (middle (gradientF single single (corrugated 857.3 251.7 587.4) 0)).2 = some (1 / 2 ^ 16) ∧
    (middle (gradient (corrugated 857.3 251.7 587.4) 0)).2 = some 0 := by
  constructor <;> decide +kernel

/-- C173 is violated: a constant added to the elevations removes the slope, because the cast to single precision does, even if the arithmetic is
done in double precision. -/
theorem C173_violated_offset :
    (middle (gradientF single (wide double) (corrugated 0 1 2) 0)).1 = some 1 ∧
    (middle (gradientF single (wide double) (corrugated (2 ^ 25) (2 ^ 25 + 1) (2 ^ 25 + 2)) 0)).1 = some 0 ∧
    (middle (gradientF single single (corrugated (2 ^ 25) (2 ^ 25 + 1) (2 ^ 25 + 2)) 0)).1 = some 0 ∧
    (middle (gradient (corrugated (2 ^ 25) (2 ^ 25 + 1) (2 ^ 25 + 2)) 0)).1 = some 1 := by
  refine ⟨?_, ?_, ?_, ?_⟩ <;> decide +kernel

/-! ### Examples -/

/-- The cells around the middle of a corrugated grid are data. -/
theorem around_corrugated (w m e : ℚ) : Around (corrugated w m e) ⟨3, 3, fun _ c => some (if c = 0 then w else if c = 1 then m else e)⟩ 1 1
    (fun _ c => if c = 0 then w else if c = 1 then m else e) := by
  refine ⟨le_rfl, by show 1 + 1 < 3; omega, le_rfl, by show 1 + 1 < 3; omega, fun r c _ _ _ _ => ⟨?_, rfl⟩⟩
  intro b hb
  rw [List.mem_singleton.1 hb]
  simp [corrugated]

example := C173_units_partial (S := single) (A := single) (g := corrugated 3 5 (15 / 2)) (k := 0) (l := -1) (m := 0) (n := 0) rfl ⟨rfl, rfl⟩
  ⟨1, by norm_num, by norm_num [corrugated]⟩ ⟨1, by norm_num, by norm_num [corrugated]⟩ (around_corrugated _ _ _) (fun _ c => by
    split_ifs
    · exact ⟨6, by norm_num, by norm_num⟩
    · exact ⟨10, by norm_num, by norm_num⟩
    · exact ⟨15, by norm_num, by norm_num⟩)

example : (middle (gradientF single single (corrugated 3 5 (15 / 2)) 0)) = (some (9 / 4), some 0) := by decide +kernel

end Karta.FloatSurface
