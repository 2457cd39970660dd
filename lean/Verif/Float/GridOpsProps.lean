import Verif.Float.GridOps
import Verif.Float.CoordProps
import Verif.Grid.SkewProps

/-!
# Grid operations in floating point: properties C142, C143 and C144
-/

namespace Karta.Float
open Karta Karta.Grid Karta.Band

variable {α : Type _} (R : Rounding)

/-! ### Specification -/

/-- Spec: a grid without skew whose origin and cell size are whole multiples of `2 ^ k`, of moderate size: cells up to `2 ^ 20` units
wide and high, the grid and its origin within `2 ^ 28` units. -/
structure WholeUnits (k : ℤ) (T : Xform) (ny nx : Nat) : Prop where
  sx : T.sx = 0
  sy : T.sy = 0
  dx0 : T.dx ≠ 0
  dy0 : T.dy ≠ 0
  dx : InUnits k (2 ^ 20) T.dx
  dy : InUnits k (2 ^ 20) T.dy
  x0 : InUnits k (2 ^ 28) T.x0
  y0 : InUnits k (2 ^ 28) T.y0
  width : |T.dx * nx| ≤ 2 ^ 28 * 2 ^ k
  height : |T.dy * ny| ≤ 2 ^ 28 * 2 ^ k

/-! ### Lemmas -/

theorem InUnits.of_abs {k B C : ℤ} {x : ℚ} (h : InUnits k B x) (hC : |x| ≤ C * 2 ^ k) : InUnits k C x := by
  obtain ⟨n, hn, rfl⟩ := h
  refine ⟨n, ?_, rfl⟩
  rw [abs_mul, abs_of_pos (two_pow_pos k)] at hC
  have := le_of_mul_le_mul_right hC (two_pow_pos k)
  exact_mod_cast this

theorem InUnits.abs_le {k B : ℤ} {x : ℚ} (h : InUnits k B x) : |x| ≤ B * 2 ^ k := by
  obtain ⟨n, hn, rfl⟩ := h
  rw [abs_mul, abs_of_pos (two_pow_pos k)]
  refine mul_le_mul_of_nonneg_right ?_ (two_pow_pos k).le
  exact_mod_cast hn

theorem InUnits.finer {k B : ℤ} {x : ℚ} (h : InUnits k B x) : InUnits (k - 1) (2 * B) x := by
  obtain ⟨n, hn, rfl⟩ := h
  refine ⟨2 * n, by rw [abs_mul]; norm_num; exact hn, ?_⟩
  rw [zpow_sub_one₀ (by norm_num)]
  push_cast; ring

theorem InUnits.half {k B : ℤ} {x : ℚ} (h : InUnits k B x) : InUnits (k - 1) B (1 / 2 * x) := by
  obtain ⟨n, hn, rfl⟩ := h
  refine ⟨n, hn, ?_⟩
  rw [zpow_sub_one₀ (by norm_num)]
  ring

theorem InUnits.zero (k : ℤ) {B : ℤ} (hB : 0 ≤ B) : InUnits k B 0 := ⟨0, by simpa using hB, by simp⟩

theorem sgn_ne {d : ℚ} (h : d ≠ 0) : sgn d ≠ sgn 0 := by
  have h0 : sgn 0 = 0 := by simp [sgn]
  rw [h0]
  unfold sgn
  rw [if_neg h]
  exact div_ne_zero h (abs_ne_zero.2 h)

theorem farBoundF_eq (p d : ℚ) (n m : ℚ) (hd : d ≠ 0) {k B C : ℤ} (hp : InUnits k B p) (hdn : InUnits k C (d * n))
    (hC : C ≤ 2 ^ 53) (hBC : B + C ≤ 2 ^ 53) : farBoundF R p d 0 n m = farBound p d 0 n m := by
  unfold farBoundF farBound
  rw [if_neg (sgn_ne hd), if_neg (sgn_ne hd), zero_mul, R.zero, sub_zero, sub_zero, hdn.exact R hC, (hp.add hdn).exact R hBC,
    (hp.add hdn).exact R hBC]

theorem farBound_plain (p d n m : ℚ) : farBound p d 0 n m = p + d * n := by
  unfold farBound
  by_cases h : sgn d = sgn 0
  · rw [if_pos h]; ring
  · rw [if_neg h]; ring

namespace WholeUnits
variable {k : ℤ} {T : Xform} {ny nx : Nat}

theorem across (w : WholeUnits k T ny nx) : InUnits k (2 ^ 28) (T.dx * nx) := by
  have h : InUnits k (2 ^ 20 * |(nx : ℤ)|) (T.dx * ((nx : ℤ) : ℚ)) := w.dx.mul_int (le_refl _)
  push_cast at h
  refine InUnits.of_abs h ?_
  push_cast; exact w.width

theorem up (w : WholeUnits k T ny nx) : InUnits k (2 ^ 28) (T.dy * ny) := by
  have h : InUnits k (2 ^ 20 * |(ny : ℤ)|) (T.dy * ((ny : ℤ) : ℚ)) := w.dy.mul_int (le_refl _)
  push_cast at h
  refine InUnits.of_abs h ?_
  push_cast; exact w.height

/-- The bounds of the grid are exact. -/
theorem extent_edge (w : WholeUnits k T ny nx) : extentF R T ny nx false = extent T ny nx false := by
  have hx := farBoundF_eq R T.x0 T.dx (nx + 0) (ny + 0) w.dx0 w.x0 (by rw [add_zero]; exact w.across) (by norm_num) (by norm_num)
  have hy := farBoundF_eq R T.y0 T.dy (ny + 0) (nx + 0) w.dy0 w.y0 (by rw [add_zero]; exact w.up) (by norm_num) (by norm_num)
  unfold extentF extent
  simp only [Bool.false_eq_true, if_false, w.sx, w.sy, hx, hy]

theorem extent_units (w : WholeUnits k T ny nx) :
    InUnits k (2 ^ 29) (extent T ny nx false).1 ∧ InUnits k (2 ^ 29) (extent T ny nx false).2.1 ∧
    InUnits k (2 ^ 29) (extent T ny nx false).2.2.1 ∧ InUnits k (2 ^ 29) (extent T ny nx false).2.2.2 := by
  unfold extent
  simp only [Bool.false_eq_true, if_false, w.sx, w.sy, farBound_plain, add_zero]
  have hx : InUnits k (2 ^ 29) (T.x0 + T.dx * nx) := (w.x0.add w.across).mono (by norm_num)
  have hy : InUnits k (2 ^ 29) (T.y0 + T.dy * ny) := (w.y0.add w.up).mono (by norm_num)
  have hx0 := w.x0.mono (show (2 : ℤ) ^ 28 ≤ 2 ^ 29 by norm_num)
  have hy0 := w.y0.mono (show (2 : ℤ) ^ 28 ≤ 2 ^ 29 by norm_num)
  exact ⟨hx0.min hx, hx0.max hx, hy0.min hy, hy0.max hy⟩

end WholeUnits

/-- Positions are on the right side of every whole and half number. -/
theorem positions_units {k : ℤ} {T : Xform} (sx : T.sx = 0) (sy : T.sy = 0) (dx0 : T.dx ≠ 0) (dy0 : T.dy ≠ 0)
    (dx : InUnits k (2 ^ 21) T.dx) (dy : InUnits k (2 ^ 21) T.dy) (x0 : InUnits k (2 ^ 29) T.x0) (y0 : InUnits k (2 ^ 29) T.y0)
    {x y : ℚ} (hx : InUnits k (2 ^ 31) x) (hy : InUnits k (2 ^ 31) y) :
    ∃ p, positionsF R T x y = some p ∧
      Grid.positions T x y = some ((y - T.y0) / T.dy - 1 / 2, (x - T.x0) / T.dx - 1 / 2) ∧
      Same p.1 ((y - T.y0) / T.dy - 1 / 2) ∧ Same p.2 ((x - T.x0) / T.dx - 1 / 2) := by
  have hdet : R.fl (R.fl (T.dx * T.dy) - R.fl (T.sx * T.sy)) = T.dx * T.dy := by
    have h := (dx.mul dy).exact R (by norm_num)
    rw [sx, zero_mul, R.zero, sub_zero, h, h]
  have hdet0 : T.dx * T.dy ≠ 0 := mul_ne_zero dx0 dy0
  have n1 : R.fl (T.dy * x) = T.dy * x := (dy.mul hx).exact R (by norm_num)
  have n2 : R.fl (T.dy * T.x0) = T.dy * T.x0 := (dy.mul x0).exact R (by norm_num)
  have n3 : R.fl (T.dy * x - T.dy * T.x0) = T.dy * x - T.dy * T.x0 :=
    ((dy.mul hx).sub (dy.mul x0)).exact R (by norm_num)
  have n4 : R.fl (y - T.y0) = y - T.y0 := (hy.sub y0).exact R (by norm_num)
  have ex : (T.dy * x - T.dy * T.x0) / (T.dx * T.dy) = (x - T.x0) / T.dx := by
    field_simp
  refine ⟨(R.fl (R.fl ((y - T.y0) / T.dy) - 1 / 2), R.fl (R.fl ((x - T.x0) / T.dx) - 1 / 2)), ?_, ?_, ?_, ?_⟩
  · unfold positionsF
    rw [hdet]
    dsimp only
    rw [if_neg (by push Not; exact ⟨hdet0, dy0⟩)]
    simp only [sx, sy, zero_mul, mul_zero, R.zero, sub_zero, add_zero, n1, n2, n3, n4, ex]
  · unfold Grid.positions
    rw [if_neg (by rw [sx, zero_mul, sub_zero]; push Not; exact ⟨hdet0, dy0⟩)]
    simp only [sx, sy, zero_mul, mul_zero, sub_zero, add_zero, ex]
  · exact Small.minusHalf R (InUnits.small ((hy.sub y0).mono (by norm_num)) (dy.mono (by norm_num)) dy0)
  · exact Small.minusHalf R (InUnits.small ((hx.sub x0).mono (by norm_num)) (dx.mono (by norm_num)) dx0)

theorem indices_units {k : ℤ} {T : Xform} (sx : T.sx = 0) (sy : T.sy = 0) (dx0 : T.dx ≠ 0) (dy0 : T.dy ≠ 0)
    (dx : InUnits k (2 ^ 21) T.dx) (dy : InUnits k (2 ^ 21) T.dy) (x0 : InUnits k (2 ^ 29) T.x0) (y0 : InUnits k (2 ^ 29) T.y0)
    {x y : ℚ} (hx : InUnits k (2 ^ 31) x) (hy : InUnits k (2 ^ 31) y) : indicesRawF R T x y = indicesRaw T x y := by
  obtain ⟨p, e, f, s, t⟩ := positions_units R sx sy dx0 dy0 dx dy x0 y0 hx hy
  unfold indicesRawF indicesRaw
  rw [e, f, Option.map_some, Option.map_some, s.rint, t.rint]

theorem mapM_congr_some {β γ : Type _} (f h : β → Option γ) (l : List β) (hl : ∀ b ∈ l, f b = h b) : l.mapM f = l.mapM h := by
  induction l with
  | nil => rfl
  | cons b l ih =>
    rw [List.mapM_cons, List.mapM_cons, hl b List.mem_cons_self, ih fun c hc => hl c (List.mem_cons_of_mem _ hc)]

namespace WholeUnits
variable {k : ℤ} {T : Xform} {ny nx : Nat}

theorem positions (w : WholeUnits k T ny nx) {x y : ℚ} (hx : InUnits k (2 ^ 29) x) (hy : InUnits k (2 ^ 29) y) :
    ∃ p, positionsF R T x y = some p ∧
      Grid.positions T x y = some ((y - T.y0) / T.dy - 1 / 2, (x - T.x0) / T.dx - 1 / 2) ∧
      Same p.1 ((y - T.y0) / T.dy - 1 / 2) ∧ Same p.2 ((x - T.x0) / T.dx - 1 / 2) :=
  positions_units R w.sx w.sy w.dx0 w.dy0 (w.dx.mono (by norm_num)) (w.dy.mono (by norm_num)) (w.x0.mono (by norm_num))
    (w.y0.mono (by norm_num)) (hx.mono (by norm_num)) (hy.mono (by norm_num))

end WholeUnits

/-- `_round` of a rounded quotient of whole units. -/
theorem round_units {k : ℤ} {a d : ℚ} (ha : InUnits k (2 ^ 50) a) (hd : InUnits k (2 ^ 50) d) (h0 : d ≠ 0) :
    roundHalfDownF R (R.fl (R.fl a / d)) = roundHalfDown (a / d) := by
  rw [ha.exact R (by norm_num), (InUnits.div ha hd h0).roundHalfDown R]

/-- The far edge computed by `resize` is exact. -/
theorem resized_edge {k : ℤ} {a b d : ℚ} (ha : InUnits k (2 ^ 28) a) (hb : InUnits k (2 ^ 28) b) (hd : InUnits k (2 ^ 20) d) (h0 : d ≠ 0) :
    R.fl (a + R.fl (d * (⌈R.fl (R.fl (b - a) / d)⌉ : ℚ))) = a + d * (⌈(b - a) / d⌉ : ℚ) ∧
    InUnits k (2 ^ 31) (a + d * (⌈(b - a) / d⌉ : ℚ)) := by
  have hba := (hb.sub ha).mono (show (2 : ℤ) ^ 28 + 2 ^ 28 ≤ 2 ^ 50 by norm_num)
  have hc : ⌈R.fl (R.fl (b - a) / d)⌉ = ⌈(b - a) / d⌉ := by
    rw [hba.exact R (by norm_num)]
    exact ((InUnits.div hba (hd.mono (by norm_num)) h0).same R).ceil
  have hm : InUnits k (2 ^ 30) (d * (⌈(b - a) / d⌉ : ℚ)) := by
    refine InUnits.of_abs (hd.mul_int (le_refl _)) ?_
    have hq1 := Int.le_ceil ((b - a) / d)
    have hq2 := Int.ceil_lt_add_one ((b - a) / d)
    set c : ℚ := (⌈(b - a) / d⌉ : ℚ)
    have hc1 : |c - (b - a) / d| ≤ 1 := by rw [_root_.abs_le]; constructor <;> linarith
    have e : d * c = (b - a) + d * (c - (b - a) / d) := by field_simp; ring
    have h1 := (hb.sub ha).abs_le
    have h2 := hd.abs_le
    have h3 : |d * (c - (b - a) / d)| ≤ |d| := by
      rw [abs_mul]
      have := mul_le_mul_of_nonneg_left hc1 (abs_nonneg d)
      linarith
    rw [e]
    have h4 := abs_add_le (b - a) (d * (c - (b - a) / d))
    have hp := two_pow_pos k
    push_cast at h1 h2 ⊢
    linarith
  refine ⟨?_, (ha.add hm).mono (by norm_num)⟩
  rw [hc, hm.exact R (by norm_num), (ha.add hm).exact R (by norm_num)]

/-! ### C142 -/

/-- C142.  In whole units floating point changes nothing about resizing: the result is that of exact arithmetic, to which C13
applies. -/
theorem C142_resize_partial (garb : α) (g : RGrid α) (k : ℤ) (w : WholeUnits k g.t g.size.1 g.size.2) (xmin ymin xmax ymax : ℚ)
    (h1 : InUnits k (2 ^ 28) xmin) (h2 : InUnits k (2 ^ 28) ymin) (h3 : InUnits k (2 ^ 28) xmax) (h4 : InUnits k (2 ^ 28) ymax) :
    resizeF R garb g xmin ymin xmax ymax = g.resize garb xmin ymin xmax ymax := by
  obtain ⟨e1, u1⟩ := resized_edge R h1 h3 w.dx w.dx0
  obtain ⟨e2, u2⟩ := resized_edge R h2 h4 w.dy w.dy0
  obtain ⟨b1, -, b3, -⟩ := w.extent_units
  have dx := w.dx.mono (show (2 : ℤ) ^ 20 ≤ 2 ^ 50 by norm_num)
  have dy := w.dy.mono (show (2 : ℤ) ^ 20 ≤ 2 ^ 50 by norm_num)
  unfold resizeF RGrid.resize bboxF bbox
  rw [w.extent_edge R]
  simp only [e1, e2]
  rw [round_units R ((u1.sub h1).mono (by norm_num)) dx w.dx0, round_units R ((u2.sub h2).mono (by norm_num)) dy w.dy0,
    round_units R ((b1.sub h1).mono (by norm_num)) dx w.dx0, round_units R ((b3.sub h2).mono (by norm_num)) dy w.dy0,
    round_units R ((h1.sub b1).mono (by norm_num)) dx w.dx0, round_units R ((h2.sub b3).mono (by norm_num)) dy w.dy0,
    round_units R ((u1.sub b1).mono (by norm_num)) dx w.dx0, round_units R ((u2.sub b3).mono (by norm_num)) dy w.dy0]
  rfl

/-- The origin of a clipped grid is exact. -/
theorem moved_edge {k : ℤ} {a b d : ℚ} (ha : InUnits k (2 ^ 28) a) (hb : InUnits k (2 ^ 28) b) (hd : InUnits k (2 ^ 20) d) (h0 : d ≠ 0) :
    R.fl (a + R.fl ((⌈(b - a) / d - 1 / 2⌉ : ℚ) * d)) = a + (⌈(b - a) / d - 1 / 2⌉ : ℚ) * d := by
  have hm : InUnits k (2 ^ 30) (d * (⌈(b - a) / d - 1 / 2⌉ : ℚ)) := by
    refine InUnits.of_abs (hd.mul_int (le_refl _)) ?_
    have hq1 := Int.le_ceil ((b - a) / d - 1 / 2)
    have hq2 := Int.ceil_lt_add_one ((b - a) / d - 1 / 2)
    set c : ℚ := (⌈(b - a) / d - 1 / 2⌉ : ℚ)
    have hc1 : |c - (b - a) / d| ≤ 1 := by rw [_root_.abs_le]; constructor <;> linarith
    have e : d * c = (b - a) + d * (c - (b - a) / d) := by field_simp; ring
    have h1 := (hb.sub ha).abs_le
    have h2 := hd.abs_le
    have h3 : |d * (c - (b - a) / d)| ≤ |d| := by
      rw [abs_mul]
      have := mul_le_mul_of_nonneg_left hc1 (abs_nonneg d)
      linarith
    rw [e]
    have h4 := abs_add_le (b - a) (d * (c - (b - a) / d))
    have hp := two_pow_pos k
    push_cast at h1 h2 ⊢
    linarith
  rw [mul_comm d] at hm
  rw [hm.exact R (by norm_num), (ha.add hm).exact R (by norm_num)]

theorem min_four {a b : ℚ} : min (min a b) (min a b) = a ∨ min (min a b) (min a b) = b := by
  rw [min_self]; exact min_choice a b

theorem min_four' {a b : ℚ} : min (min a a) (min b b) = a ∨ min (min a a) (min b b) = b := by
  rw [min_self, min_self]; exact min_choice a b

/-- C142.  In whole units floating point changes nothing about clipping: the result is that of exact arithmetic, to which C12
applies. -/
theorem C142_clip_partial (zero garb : α) (g : RGrid α) (k : ℤ) (w : WholeUnits k g.t g.size.1 g.size.2) (xmin xmax ymin ymax : ℚ)
    (h1 : InUnits k (2 ^ 28) xmin) (h2 : InUnits k (2 ^ 28) xmax) (h3 : InUnits k (2 ^ 28) ymin) (h4 : InUnits k (2 ^ 28) ymax) :
    clipF R zero garb g xmin xmax ymin ymax = g.clip zero garb xmin xmax ymin ymax := by
  have m : (2 : ℤ) ^ 28 ≤ 2 ^ 29 := by norm_num
  obtain ⟨p1, e1, f1, s1, t1⟩ := w.positions R (h1.mono m) (h3.mono m)
  obtain ⟨p2, e2, f2, s2, t2⟩ := w.positions R (h2.mono m) (h3.mono m)
  obtain ⟨p3, e3, f3, s3, t3⟩ := w.positions R (h1.mono m) (h4.mono m)
  obtain ⟨p4, e4, f4, s4, t4⟩ := w.positions R (h2.mono m) (h4.mono m)
  have hb : clipBoundsF R g.t xmin xmax ymin ymax = clipBounds g.t xmin xmax ymin ymax := by
    unfold clipBoundsF clipBounds
    simp only [e1, e2, e3, e4, f1, f2, f3, f4]
    rw [((s1.min s2).min (s3.min s4)).ceil, ((s1.max s2).max (s3.max s4)).floor,
      ((t1.min t2).min (t3.min t4)).ceil, ((t1.max t2).max (t3.max t4)).floor]
  unfold clipF RGrid.clip
  rw [hb]
  unfold clipBounds
  simp only [f1, f2, f3, f4, Option.map_some]
  congr 2
  unfold movedF Xform.moved
  have hx : ∀ c : ℚ, InUnits k (2 ^ 28) c →
      R.fl (g.t.x0 + R.fl ((⌈(c - g.t.x0) / g.t.dx - 1 / 2⌉ : ℚ) * g.t.dx)) = g.t.x0 + (⌈(c - g.t.x0) / g.t.dx - 1 / 2⌉ : ℚ) * g.t.dx :=
    fun c hc => moved_edge R w.x0 hc w.dx w.dx0
  have hy : ∀ c : ℚ, InUnits k (2 ^ 28) c →
      R.fl (g.t.y0 + R.fl ((⌈(c - g.t.y0) / g.t.dy - 1 / 2⌉ : ℚ) * g.t.dy)) = g.t.y0 + (⌈(c - g.t.y0) / g.t.dy - 1 / 2⌉ : ℚ) * g.t.dy :=
    fun c hc => moved_edge R w.y0 hc w.dy w.dy0
  simp only [w.sx, w.sy, mul_zero, R.zero, add_zero, R.idem]
  congr 1
  · rcases min_four (a := (xmin - g.t.x0) / g.t.dx - 1 / 2) (b := (xmax - g.t.x0) / g.t.dx - 1 / 2) with e | e <;> rw [e]
    · exact hx _ h1
    · exact hx _ h2
  · rcases min_four' (a := (ymin - g.t.y0) / g.t.dy - 1 / 2) (b := (ymax - g.t.y0) / g.t.dy - 1 / 2) with e | e <;> rw [e]
    · exact hy _ h3
    · exact hy _ h4

/-- Spec: an edge of a box that is at least 1/512 of a cell away from all centres of cells of width `d` counted from `x0`. -/
def OffCentre (x0 d x : ℚ) : Prop := ∀ c : ℤ, 1 / 512 ≤ |(x - x0) / d - (c + 1 / 2)|

theorem off_centre_ceil {p s : ℚ} (hp : |p - (s - 1 / 2)| < 1 / 512) (hs : ∀ c : ℤ, 1 / 512 ≤ |s - (c + 1 / 2)|) :
    ∀ n : ℤ, (p ≤ n ↔ s - 1 / 2 ≤ n) ∧ ((n : ℚ) ≤ p ↔ (n : ℚ) ≤ s - 1 / 2) := by
  intro n
  have h1 := abs_lt.1 hp
  have h2 := hs n
  rcases le_or_gt 0 (s - (n + 1 / 2)) with h | h
  · rw [abs_of_nonneg h] at h2
    exact ⟨⟨fun _ => by linarith, fun _ => by linarith⟩, ⟨fun _ => by linarith, fun _ => by linarith⟩⟩
  · rw [abs_of_neg h] at h2
    exact ⟨⟨fun _ => by linarith, fun _ => by linarith⟩, ⟨fun _ => by linarith, fun _ => by linarith⟩⟩

/-- `p` and `q` are on the same side of every whole number. -/
def SameInt (p q : ℚ) : Prop := ∀ n : ℤ, (p ≤ n ↔ q ≤ n) ∧ ((n : ℚ) ≤ p ↔ (n : ℚ) ≤ q)

theorem SameInt.min {a b c d : ℚ} (h : SameInt a c) (k : SameInt b d) : SameInt (min a b) (min c d) := by
  intro n
  simp only [min_le_iff, le_min_iff, (h n).1, (h n).2, (k n).1, (k n).2, and_self]

theorem SameInt.max {a b c d : ℚ} (h : SameInt a c) (k : SameInt b d) : SameInt (max a b) (max c d) := by
  intro n
  simp only [max_le_iff, le_max_iff, (h n).1, (h n).2, (k n).1, (k n).2, and_self]

theorem SameInt.ceil {p q : ℚ} (h : SameInt p q) : ⌈p⌉ = ⌈q⌉ := by
  apply le_antisymm
  · rw [Int.ceil_le]; exact (h _).1.2 (Int.le_ceil _)
  · rw [Int.ceil_le]; exact (h _).1.1 (Int.le_ceil _)

theorem SameInt.floor {p q : ℚ} (h : SameInt p q) : ⌊p⌋ = ⌊q⌋ := by
  apply le_antisymm
  · rw [Int.le_floor]; exact (h _).2.1 (Int.floor_le _)
  · rw [Int.le_floor]; exact (h _).2.2 (Int.floor_le _)

/-- C142.  For any cell size: a box whose edges stay away from the centres of cells is clipped to the same rows and columns as in exact
arithmetic. -/
theorem C142_clip_window_partial (T : Xform) (hsx : T.sx = 0) (hsy : T.sy = 0) (hdx : T.dx ≠ 0) (hdy : T.dy ≠ 0)
    (xmin xmax ymin ymax : ℚ) (hx0 : InRange T.dx T.x0) (hy0 : InRange T.dy T.y0)
    (r1 : InRange T.dx xmin) (r2 : InRange T.dx xmax) (r3 : InRange T.dy ymin) (r4 : InRange T.dy ymax)
    (o1 : OffCentre T.x0 T.dx xmin) (o2 : OffCentre T.x0 T.dx xmax) (o3 : OffCentre T.y0 T.dy ymin) (o4 : OffCentre T.y0 T.dy ymax) :
    clipBoundsF R T xmin xmax ymin ymax = clipBounds T xmin xmax ymin ymax := by
  have hpos : ∀ x y : ℚ, positions T x y = some ((y - T.y0) / T.dy - 1 / 2, (x - T.x0) / T.dx - 1 / 2) := by
    intro x y
    have ex : (T.dy * x - T.dy * T.x0) / (T.dx * T.dy) = (x - T.x0) / T.dx := by field_simp
    unfold Grid.positions
    rw [if_neg (by rw [hsx, zero_mul, sub_zero]; push Not; exact ⟨mul_ne_zero hdx hdy, hdy⟩)]
    simp only [hsx, hsy, zero_mul, mul_zero, sub_zero, add_zero, ex]
  have hF : ∀ x y : ℚ, InRange T.dx x → InRange T.dy y → OffCentre T.x0 T.dx x → OffCentre T.y0 T.dy y →
      ∃ p, positionsF R T x y = some p ∧ SameInt p.1 ((y - T.y0) / T.dy - 1 / 2) ∧ SameInt p.2 ((x - T.x0) / T.dx - 1 / 2) := by
    intro x y hx hy ox oy
    obtain ⟨i, j, e, hi, hj⟩ := C141_positions R T hsx hsy hdx hdy x y hx hx0 hy hy0
    exact ⟨(i, j), e, off_centre_ceil hi oy, off_centre_ceil hj ox⟩
  obtain ⟨p1, e1, s1, t1⟩ := hF xmin ymin r1 r3 o1 o3
  obtain ⟨p2, e2, s2, t2⟩ := hF xmax ymin r2 r3 o2 o3
  obtain ⟨p3, e3, s3, t3⟩ := hF xmin ymax r1 r4 o1 o4
  obtain ⟨p4, e4, s4, t4⟩ := hF xmax ymax r2 r4 o2 o4
  unfold clipBoundsF clipBounds
  simp only [e1, e2, e3, e4, hpos]
  rw [((s1.min s2).min (s3.min s4)).ceil, ((s1.max s2).max (s3.max s4)).floor,
    ((t1.min t2).min (t3.min t4)).ceil, ((t1.max t2).max (t3.max t4)).floor]

/-- The number nearest to one tenth, the usual cell size in degrees. -/
def tenth : ℚ := rnd (1 / 10)

/-- A grid of one row of `W` cells, 0.1 wide, from 0. -/
def tenths (W : Nat) : Except Err (RGrid ℚ) := oneBand ⟨0, 0, tenth, 1, 0, 0⟩ 1 W

/-- The values of the cells of a result, row by row. -/
def valuesOf (r : Except Err (RGrid ℚ)) : Except Err (List (Option ℚ)) := r.map fun g => g.cells.map Prod.snd

/-- C142 is violated for cells that are not whole: resizing ten cells of 0.1 to the box from 0.1 to 0.4 keeps four columns, while exact
arithmetic on the same numbers keeps the three columns between these coordinates. -/
theorem C142_violated_resize :
    valuesOf ((tenths 10).bind fun g => resizeF double 0 g (rnd (1 / 10)) 0 (rnd (4 / 10)) 1) = .ok [some 1, some 2, some 3, some 4] ∧
    valuesOf ((tenths 10).bind fun g => g.resize 0 (rnd (1 / 10)) 0 (rnd (4 / 10)) 1) = .ok [some 1, some 2, some 3] := by
  constructor <;> decide +kernel

/-- C142 is violated for cells that are not whole: the grid reports the centres of its columns 1 and 6, and clipping to the box
between these centres loses column 1. -/
theorem C142_violated_clip :
    valuesOf ((tenths 10).bind fun g => (clipF double 0 0 g (coordGenF double g.t 0 1).1 (coordGenF double g.t 0 6).1 0 1).getD (.error .other)) =
      .ok [some 2, some 3, some 4, some 5, some 6] := by
  decide +kernel

/-! ### C143 -/

/-- The test whether an offset is a whole number of cells gives the exact answer. -/
theorem mod1_units {k : ℤ} {a d : ℚ} (ha : InUnits k (2 ^ 29) a) (hd : InUnits k (2 ^ 20) d) (h0 : d ≠ 0) :
    mod1F R (R.fl (R.fl a / d)) ≤ R.fl (1 / 10 ^ 15) ↔ Int.fract (a / d) ≤ 1 / 10 ^ 15 := by
  have ht := InUnits.div (ha.mono (show (2 : ℤ) ^ 29 ≤ 2 ^ 50 by norm_num)) (hd.mono (show (2 : ℤ) ^ 20 ≤ 2 ^ 50 by norm_num)) h0
  rw [ha.exact R (by norm_num)]
  unfold mod1F
  rw [(ht.same R).floor]
  obtain ⟨n, hn, rfl⟩ := ha
  obtain ⟨m, hm, rfl⟩ := hd
  have hp := (two_pow_pos k).ne'
  have hm0 : m ≠ 0 := by rintro rfl; exact h0 (by push_cast; ring)
  have hmq : (m : ℚ) ≠ 0 := by exact_mod_cast hm0
  rw [mul_div_mul_right _ _ hp] at ht ⊢
  set q : ℚ := n / m with hq
  have h1m : (1 : ℚ) ≤ |(m : ℚ)| := by exact_mod_cast Int.one_le_abs hm0
  have hfr : Int.fract q = q - ⌊q⌋ := Int.self_sub_floor q ▸ rfl
  by_cases hz : q = ⌊q⌋
  · have e : R.fl q = q := by
      have := (ht.half R (2 * ⌊q⌋)).2.1 (by rw [two_mul_half]; exact hz)
      rw [two_mul_half] at this
      rw [this]; exact hz.symm
    rw [e, hfr, sub_eq_zero.2 hz, R.zero]
    constructor
    · intro; positivity
    · intro; exact R.nonneg (by positivity)
  · have hfr1 : 1 / 2 ^ 20 ≤ q - ⌊q⌋ := by
      have e : q - ⌊q⌋ = ((n - ⌊q⌋ * m : ℤ) : ℚ) / m := by rw [hq]; push_cast; field_simp
      have hne : n - ⌊q⌋ * m ≠ 0 := by
        intro h
        rw [h] at e
        exact hz (by rw [Int.cast_zero, zero_div] at e; linarith)
      have h1 : (1 : ℚ) ≤ |((n - ⌊q⌋ * m : ℤ) : ℚ)| := by
        have := Int.one_le_abs hne
        exact_mod_cast this
      have h2 : 0 ≤ q - ⌊q⌋ := sub_nonneg.2 (Int.floor_le q)
      have h3 : |(m : ℚ)| ≤ 2 ^ 20 := by exact_mod_cast hm
      rw [← abs_of_nonneg h2, e, abs_div, le_div_iff₀ (by linarith)]
      linarith
    have herr : |R.fl q - q| ≤ 1 / 2 ^ 24 := by
      refine le_trans (R.err q) ?_
      have h3 : |(n : ℚ)| ≤ 2 ^ 29 := by exact_mod_cast hn
      have h4 : |q| ≤ 2 ^ 29 := by
        rw [hq, abs_div]
        exact le_trans (div_le_self (abs_nonneg _) h1m) h3
      linarith
    have h5 : 1 / 2 ^ 21 ≤ R.fl q - ⌊q⌋ := by
      have := (_root_.abs_le.1 herr).1
      linarith
    have h6 := R.mono h5
    have h7 : R.fl (1 / 2 ^ 21) = 1 / 2 ^ 21 := by
      have := R.exact 1 (-21) (by norm_num)
      norm_num at this ⊢
      exact this
    have h8 : R.fl (1 / 2 ^ 49) = 1 / 2 ^ 49 := by
      have := R.exact 1 (-49) (by norm_num)
      norm_num at this ⊢
      exact this
    have h9 : R.fl (1 / 10 ^ 15) ≤ R.fl (1 / 2 ^ 49) := R.mono (by norm_num)
    rw [h7] at h6
    rw [h8] at h9
    rw [hfr]
    constructor
    · intro h; exfalso
      have := le_trans h6 (le_trans h h9)
      norm_num at this
    · intro h; exfalso
      have := le_trans hfr1 h
      norm_num at this

/-- Offsets in cells are exact. -/
theorem trunc_units {k : ℤ} {a d : ℚ} (ha : InUnits k (2 ^ 50) a) (hd : InUnits k (2 ^ 50) d) (h0 : d ≠ 0) :
    trunc (R.fl (R.fl a / d)) = trunc (a / d) := by
  rw [ha.exact R (by norm_num), ((InUnits.div ha hd h0).same R).trunc]

theorem rint_units {k : ℤ} {a d : ℚ} (ha : InUnits k (2 ^ 50) a) (hd : InUnits k (2 ^ 50) d) (h0 : d ≠ 0) :
    rint (R.fl (R.fl a / d)) = rint (a / d) := by
  rw [ha.exact R (by norm_num), ((InUnits.div ha hd h0).same R).rint]

theorem floor_units {k : ℤ} {a d : ℚ} (ha : InUnits k (2 ^ 50) a) : ⌊R.fl a / d⌋ = ⌊a / d⌋ := by
  rw [ha.exact R (by norm_num)]

theorem union_units {k : ℤ} (rest : List (RGrid ℚ)) : ∀ (a : ℚ × ℚ × ℚ × ℚ),
    (∀ g ∈ rest, WholeUnits k g.t g.size.1 g.size.2) →
    InUnits k (2 ^ 29) a.1 → InUnits k (2 ^ 29) a.2.1 → InUnits k (2 ^ 29) a.2.2.1 → InUnits k (2 ^ 29) a.2.2.2 →
    let r := rest.foldl (fun a g =>
      let e := extent g.t g.size.1 g.size.2 false
      (min a.1 e.1, max a.2.1 e.2.1, min a.2.2.1 e.2.2.1, max a.2.2.2 e.2.2.2)) a
    rest.foldl (fun a g =>
      let e := extentF R g.t g.size.1 g.size.2 false
      (min a.1 e.1, max a.2.1 e.2.1, min a.2.2.1 e.2.2.1, max a.2.2.2 e.2.2.2)) a = r ∧
    InUnits k (2 ^ 29) r.1 ∧ InUnits k (2 ^ 29) r.2.1 ∧ InUnits k (2 ^ 29) r.2.2.1 ∧ InUnits k (2 ^ 29) r.2.2.2 := by
  induction rest with
  | nil => intro a _ h1 h2 h3 h4; exact ⟨rfl, h1, h2, h3, h4⟩
  | cons g rest ih =>
    intro a hw h1 h2 h3 h4
    have w := hw g List.mem_cons_self
    obtain ⟨e1, e2, e3, e4⟩ := w.extent_units
    simp only [List.foldl_cons, w.extent_edge R]
    exact ih _ (fun g' hg => hw g' (List.mem_cons_of_mem _ hg)) (h1.min e1) (h2.max e2) (h3.min e3) (h4.max e4)

theorem mergeLoop_units {k : ℤ} (xmin ymin dx dy garb : ℚ) (iband : Nat) (h1 : InUnits k (2 ^ 29) xmin) (h2 : InUnits k (2 ^ 29) ymin)
    (h3 : InUnits k (2 ^ 20) dx) (h4 : InUnits k (2 ^ 20) dy) (hx : dx ≠ 0) (hy : dy ≠ 0) (gws : List (RGrid ℚ × ℚ)) :
    ∀ st, (∀ gw ∈ gws, WholeUnits k gw.1.t gw.1.size.1 gw.1.size.2) →
      mergeLoopF R xmin ymin dx dy garb iband gws st = mergeLoop xmin ymin dx dy garb iband gws st := by
  induction gws with
  | nil => intro st _; rfl
  | cons gw rest ih =>
    intro st hw
    have w := hw gw List.mem_cons_self
    obtain ⟨e1, -, e3, -⟩ := w.extent_units
    have m : (2 : ℤ) ^ 20 ≤ 2 ^ 50 := by norm_num
    have hs : mergeStepF R xmin ymin dx dy garb iband st gw = mergeStep xmin ymin dx dy garb iband st gw := by
      unfold mergeStepF mergeStep
      rw [w.extent_edge R]
      dsimp only
      rw [trunc_units R ((e1.sub h1).mono (by norm_num)) (h3.mono m) hx, trunc_units R ((e3.sub h2).mono (by norm_num)) (h4.mono m) hy]
      rfl
    unfold mergeLoopF mergeLoop
    rw [hs]
    cases mergeStep xmin ymin dx dy garb iband st gw with
    | error e => rfl
    | ok st' => exact ih st' (fun g' hg => hw g' (List.mem_cons_of_mem _ hg))

/-- C143.  In whole units floating point changes nothing about merging: the result is that of exact arithmetic, to which C14
applies. -/
theorem C143_merge_partial (garb : ℚ) (gs : List (RGrid ℚ)) (weights : Option (List ℚ)) (k : ℤ)
    (w : ∀ g ∈ gs, WholeUnits k g.t g.size.1 g.size.2) : mergeF R garb gs weights = merge garb gs weights := by
  cases gs with
  | nil => rfl
  | cons g0 rest =>
    have w0 := w g0 List.mem_cons_self
    have wr : ∀ g ∈ rest, WholeUnits k g.t g.size.1 g.size.2 := fun g hg => w g (List.mem_cons_of_mem _ hg)
    have hoff : rest.all (fun g => offsetOkF R g0.t g.t) = rest.all (fun g => offsetOk g0.t g.t) := by
      rw [Bool.eq_iff_iff, List.all_eq_true, List.all_eq_true]
      refine forall₂_congr fun g hg => ?_
      have wg := wr g hg
      unfold offsetOkF offsetOk
      simp only [mod1_units R ((wg.x0.sub w0.x0).mono (show (2 : ℤ) ^ 28 + 2 ^ 28 ≤ 2 ^ 29 by norm_num)) w0.dx w0.dx0,
        mod1_units R ((wg.y0.sub w0.y0).mono (show (2 : ℤ) ^ 28 + 2 ^ 28 ≤ 2 ^ 29 by norm_num)) w0.dy w0.dy0]
    obtain ⟨e1, e2, e3, e4⟩ := w0.extent_units
    obtain ⟨hu, u1, u2, u3, u4⟩ := union_units R rest (extent g0.t g0.size.1 g0.size.2 false) wr e1 e2 e3 e4
    have hu' : unionExtentF R g0 rest = unionExtent g0 rest := by
      unfold unionExtentF unionExtent
      rw [w0.extent_edge R]
      exact hu
    have v1 : InUnits k (2 ^ 29) (unionExtent g0 rest).1 := u1
    have v2 : InUnits k (2 ^ 29) (unionExtent g0 rest).2.1 := u2
    have v3 : InUnits k (2 ^ 29) (unionExtent g0 rest).2.2.1 := u3
    have v4 : InUnits k (2 ^ 29) (unionExtent g0 rest).2.2.2 := u4
    have m : (2 : ℤ) ^ 20 ≤ 2 ^ 50 := by norm_num
    have hb : ∀ ny nx iband nd (nw : List ℚ), mergeBandF R (unionExtent g0 rest).1 (unionExtent g0 rest).2.2.1 g0.t.dx g0.t.dy garb nd ny nx
        ((g0 :: rest).zip nw) iband = mergeBand (unionExtent g0 rest).1 (unionExtent g0 rest).2.2.1 g0.t.dx g0.t.dy garb nd ny nx
        ((g0 :: rest).zip nw) iband := by
      intro ny nx iband nd nw
      unfold mergeBandF mergeBand
      rw [mergeLoop_units R _ _ _ _ garb iband v1 v3 w0.dx w0.dy w0.dx0 w0.dy0 _ _ fun gw hg => w _ (List.of_mem_zip hg).1]
      rfl
    have hb' : ∀ ny nx nd (nw : List ℚ), mergeBandF R (unionExtent g0 rest).1 (unionExtent g0 rest).2.2.1 g0.t.dx g0.t.dy garb nd ny nx
        ((g0 :: rest).zip nw) = mergeBand (unionExtent g0 rest).1 (unionExtent g0 rest).2.2.1 g0.t.dx g0.t.dy garb nd ny nx
        ((g0 :: rest).zip nw) := fun ny nx nd nw => funext fun ib => hb ny nx ib nd nw
    unfold mergeF merge
    dsimp only
    rw [hoff, hu', rint_units R ((v2.sub v1).mono (by norm_num)) (w0.dx.mono m) w0.dx0,
      rint_units R ((v4.sub v3).mono (by norm_num)) (w0.dy.mono m) w0.dy0, hb']
    rfl

/-- C143 is violated for cells that are not whole: of two grids of 0.1 cells from 0 and from -0.3, the first is put two columns right of
the second instead of three, without an error. -/
theorem C143_violated_misplaced :
    valuesOf ((tenths 2).bind fun g => (oneBand ⟨rnd (-3 / 10), 0, tenth, 1, 0, 0⟩ 1 2).bind fun h => mergeF double 0 [g, h] none) =
      .ok [some 0, some 1, some 0, some 1, some (-9)] := by
  decide +kernel

/-- C143 is violated for cells that are not whole: the same two grids in the other order raise ValueError. -/
theorem C143_violated_refused :
    valuesOf ((tenths 2).bind fun g => (oneBand ⟨rnd (-3 / 10), 0, tenth, 1, 0, 0⟩ 1 2).bind fun h => mergeF double 0 [h, g] none) =
      .error .valueError := by
  decide +kernel

/-! ### C144 -/

theorem foldl_max_units {k B : ℤ} (l : List ℚ) : ∀ a, InUnits k B a → (∀ x ∈ l, InUnits k B x) → InUnits k B (l.foldl max a) := by
  induction l with
  | nil => intro a h _; exact h
  | cons x l ih =>
    intro a h hl
    exact ih _ (h.max (hl x List.mem_cons_self)) fun y hy => hl y (List.mem_cons_of_mem _ hy)

/-- C144.  In whole units floating point changes nothing about `gridpoints`: the result is that of exact arithmetic, to which C15
applies. -/
theorem C144_gridpoints_partial (garb : Option ℚ) (T : Xform) (pts : List (ℚ × ℚ × ℚ)) (k : ℤ) (w : WholeUnits k T 0 0)
    (hp : ∀ p ∈ pts, InUnits k (2 ^ 28) p.1 ∧ InUnits k (2 ^ 28) p.2.1) : gridpointsF R garb T pts = gridpoints garb T pts := by
  cases pts with
  | nil => rfl
  | cons p ps =>
    have p0 := hp p List.mem_cons_self
    have hx : InUnits k (2 ^ 28) ((ps.map fun q => q.1).foldl max p.1) := by
      refine foldl_max_units _ _ p0.1 fun x hx => ?_
      obtain ⟨q, hq, rfl⟩ := List.mem_map.1 hx
      exact (hp q (List.mem_cons_of_mem _ hq)).1
    have hy : InUnits k (2 ^ 28) ((ps.map fun q => q.2.1).foldl max p.2.1) := by
      refine foldl_max_units _ _ p0.2 fun x hx => ?_
      obtain ⟨q, hq, rfl⟩ := List.mem_map.1 hx
      exact (hp q (List.mem_cons_of_mem _ hq)).2
    have hi : ∀ ny nx, indicesVecF R T ny nx ((p :: ps).map fun q => (q.1, q.2.1)) = indicesVec T ny nx ((p :: ps).map fun q => (q.1, q.2.1)) := by
      intro ny nx
      unfold indicesVecF indicesVec
      rw [mapM_congr_some (fun p : ℚ × ℚ => indicesRawF R T p.1 p.2) (fun p : ℚ × ℚ => indicesRaw T p.1 p.2)]
      · rfl
      intro b hb
      obtain ⟨q, hq, rfl⟩ := List.mem_map.1 hb
      exact indices_units R w.sx w.sy w.dx0 w.dy0 (w.dx.mono (by norm_num)) (w.dy.mono (by norm_num)) (w.x0.mono (by norm_num))
        (w.y0.mono (by norm_num)) ((hp q hq).1.mono (by norm_num)) ((hp q hq).2.mono (by norm_num))
    unfold gridpointsF gridpoints
    dsimp only
    rw [floor_units R ((hx.sub w.x0).mono (by norm_num)), floor_units R ((hy.sub w.y0).mono (by norm_num)), hi]
    rfl

/-- The extent of the centres is exact. -/
theorem WholeUnits.extent_centre {k : ℤ} {T : Xform} {ny nx : Nat} (w : WholeUnits k T ny nx) :
    extentF R T ny nx true = extent T ny nx true ∧
    InUnits (k - 1) (2 ^ 30 + 2 ^ 22) (extent T ny nx true).1 ∧ InUnits (k - 1) (2 ^ 30 + 2 ^ 22) (extent T ny nx true).2.1 ∧
    InUnits (k - 1) (2 ^ 30 + 2 ^ 22) (extent T ny nx true).2.2.1 ∧ InUnits (k - 1) (2 ^ 30 + 2 ^ 22) (extent T ny nx true).2.2.2 := by
  have hx : InUnits (k - 1) (2 ^ 29 + 2 ^ 21) (T.dx * ((nx : ℚ) + -1)) := by
    rw [show T.dx * ((nx : ℚ) + -1) = T.dx * nx - T.dx by ring]
    exact (w.across.sub w.dx).finer.mono (by norm_num)
  have hy : InUnits (k - 1) (2 ^ 29 + 2 ^ 21) (T.dy * ((ny : ℚ) + -1)) := by
    rw [show T.dy * ((ny : ℚ) + -1) = T.dy * ny - T.dy by ring]
    exact (w.up.sub w.dy).finer.mono (by norm_num)
  have cx : InUnits (k - 1) (2 ^ 29 + 2 ^ 20) (T.x0 + 1 / 2 * T.dx) := (w.x0.finer.add w.dx.half).mono (by norm_num)
  have cy : InUnits (k - 1) (2 ^ 29 + 2 ^ 20) (T.y0 + 1 / 2 * T.dy) := (w.y0.finer.add w.dy.half).mono (by norm_num)
  have hc : centerLlrefF R T = (T.x0 + 1 / 2 * T.dx, T.y0 + 1 / 2 * T.dy) := by
    unfold centerLlrefF
    rw [w.sx, w.sy, add_zero, add_zero, w.dx.exact R (by norm_num), w.dy.exact R (by norm_num), w.dx.half.exact R (by norm_num),
      w.dy.half.exact R (by norm_num), cx.exact R (by norm_num), cy.exact R (by norm_num)]
  have hc' : centerLlref T = (T.x0 + 1 / 2 * T.dx, T.y0 + 1 / 2 * T.dy) := by
    unfold centerLlref
    rw [w.sx, w.sy, add_zero, add_zero]
  have fx := farBoundF_eq R (T.x0 + 1 / 2 * T.dx) T.dx ((nx : ℚ) + -1) ((ny : ℚ) + -1) w.dx0 cx hx (by norm_num) (by norm_num)
  have fy := farBoundF_eq R (T.y0 + 1 / 2 * T.dy) T.dy ((ny : ℚ) + -1) ((nx : ℚ) + -1) w.dy0 cy hy (by norm_num) (by norm_num)
  have ux := (cx.add hx).mono (show (2 : ℤ) ^ 29 + 2 ^ 20 + (2 ^ 29 + 2 ^ 21) ≤ 2 ^ 30 + 2 ^ 22 by norm_num)
  have uy := (cy.add hy).mono (show (2 : ℤ) ^ 29 + 2 ^ 20 + (2 ^ 29 + 2 ^ 21) ≤ 2 ^ 30 + 2 ^ 22 by norm_num)
  have vx := cx.mono (show (2 : ℤ) ^ 29 + 2 ^ 20 ≤ 2 ^ 30 + 2 ^ 22 by norm_num)
  have vy := cy.mono (show (2 : ℤ) ^ 29 + 2 ^ 20 ≤ 2 ^ 30 + 2 ^ 22 by norm_num)
  unfold extentF extent
  simp only [if_true, w.sx, w.sy, hc, hc', fx, fy, farBound_plain]
  exact ⟨trivial, vx.min ux, vx.max ux, vy.min uy, vy.max uy⟩

theorem fl_eq_of_units {k B : ℤ} {x : ℚ} (h : InUnits k B x) (hB : B ≤ 2 ^ 53) : R.fl x = x := h.exact R hB

/-- One coordinate of a cell centre of the resampled grid. -/
theorem centre_units {l : ℤ} {a b d : ℚ} (ha : InUnits l (2 ^ 30 + 2 ^ 22) a) (hb : InUnits l (2 ^ 30 + 2 ^ 22) b)
    (hd : InUnits l (2 ^ 21) d) (hh : InUnits l (2 ^ 20) (1 / 2 * d)) (hpos : 0 < d) (j : Nat) (hj : j < (⌊(b - a) / d⌋ + 1).toNat) :
    R.fl (R.fl (a - 1 / 2 * d + R.fl ((j : ℚ) * d)) + 1 / 2 * d) = a - 1 / 2 * d + (j : ℚ) * d + 1 / 2 * d ∧
    InUnits l (2 ^ 31) (a - 1 / 2 * d + (j : ℚ) * d + 1 / 2 * d) := by
  have hj' : (j : ℤ) ≤ ⌊(b - a) / d⌋ := by omega
  have hj2 : ((j : ℤ) : ℚ) ≤ (b - a) / d := Int.le_floor.1 hj'
  rw [le_div_iff₀ hpos, Int.cast_natCast] at hj2
  have hj0 : 0 ≤ (j : ℚ) * d := by positivity
  have ja : InUnits l (2 ^ 31 + 2 ^ 23) (d * ((j : ℤ) : ℚ)) := by
    refine InUnits.of_abs (hd.mul_int (le_refl _)) ?_
    rw [Int.cast_natCast, mul_comm, abs_of_nonneg hj0]
    have h1 := (hb.sub ha).abs_le
    have h2 := le_abs_self (b - a)
    have hp := two_pow_pos l
    push_cast at h1 ⊢
    linarith
  rw [Int.cast_natCast, mul_comm] at ja
  have s1 := (ha.sub hh).add ja
  have s2 := s1.add hh
  refine ⟨?_, ?_⟩
  · rw [ja.exact R (by norm_num), s1.exact R (by norm_num), s2.exact R (by norm_num)]
  · refine s2.of_abs ?_
    have h1 := ha.abs_le
    have h2 := hb.abs_le
    have hp := two_pow_pos l
    rw [_root_.abs_le] at h1 h2 ⊢
    push_cast at h1 h2 ⊢
    constructor <;> linarith

/-- C144.  In whole units floating point changes nothing about resampling by nearest cells: the result is that of exact arithmetic, to
which C110 and C111 apply. -/
theorem C144_resample_partial (zero garb : α) (kern : Arr α → ℚ → ℚ → Except Err α) (g : RGrid α) (k : ℤ)
    (w : WholeUnits k g.t g.size.1 g.size.2) (dx dy : ℚ) (hx : InUnits k (2 ^ 20) dx) (hy : InUnits k (2 ^ 20) dy) :
    resampleF R zero garb g dx dy = g.resample zero garb kern dx dy .nearest := by
  unfold resampleF RGrid.resample
  by_cases hneg : dx ≤ 0 ∨ dy ≤ 0
  · rw [if_pos hneg, if_pos hneg]
  rw [if_neg hneg, if_neg hneg]
  push Not at hneg
  obtain ⟨he, u1, u2, u3, u4⟩ := w.extent_centre R
  have hn : resampledSizeF R g.t g.size.1 g.size.2 dx dy = resampledSize g.t g.size.1 g.size.2 dx dy := by
    unfold resampledSizeF resampledSize
    rw [he]
    dsimp only
    rw [floor_units R ((u4.sub u3).mono (by norm_num)), floor_units R ((u2.sub u1).mono (by norm_num))]
  have a1 := (u1.sub hx.half).exact R (by norm_num)
  have a2 := (u3.sub hy.half).exact R (by norm_num)
  have ht : resampledXformF R g.t g.size.1 g.size.2 dx dy = resampledXform g.t g.size.1 g.size.2 dx dy := by
    unfold resampledXformF resampledXform
    rw [he]
    simp only [w.sx, w.sy, mul_zero, R.zero, sub_zero, hx.half.exact R (by norm_num), hy.half.exact R (by norm_num), a1, a2]
  dsimp only
  rw [hn, ht]
  have hsize : resampledSize g.t g.size.1 g.size.2 dx dy = ((⌊((extent g.t g.size.1 g.size.2 true).2.2.2 - (extent g.t g.size.1 g.size.2 true).2.2.1) / dy⌋ + 1).toNat,
      (⌊((extent g.t g.size.1 g.size.2 true).2.1 - (extent g.t g.size.1 g.size.2 true).1) / dx⌋ + 1).toNat) := rfl
  have hxf : resampledXform g.t g.size.1 g.size.2 dx dy = ⟨(extent g.t g.size.1 g.size.2 true).1 - 1 / 2 * dx,
      (extent g.t g.size.1 g.size.2 true).2.2.1 - 1 / 2 * dy, dx, dy, 0, 0⟩ := by
    unfold resampledXform
    simp only [w.sx, w.sy, mul_zero, sub_zero]
  rw [hsize, hxf]
  set e := extent g.t g.size.1 g.size.2 true with hedef
  set ny := (⌊(e.2.2.2 - e.2.2.1) / dy⌋ + 1).toNat with hny
  set nx := (⌊(e.2.1 - e.1) / dx⌋ + 1).toNat with hnx
  set t : Xform := ⟨e.1 - 1 / 2 * dx, e.2.2.1 - 1 / 2 * dy, dx, dy, 0, 0⟩ with htdef
  have hcg : ∀ i j : Nat, i < ny → j < nx → coordGenF R t i j = coordGen t i j ∧
      InUnits (k - 1) (2 ^ 31) (coordGen t i j).1 ∧ InUnits (k - 1) (2 ^ 31) (coordGen t i j).2 := by
    intro i j hi hj
    obtain ⟨c1, c2⟩ := centre_units R u1 u2 (hx.finer.mono (by norm_num)) hx.half hneg.1 j hj
    obtain ⟨d1, d2⟩ := centre_units R u3 u4 (hy.finer.mono (by norm_num)) hy.half hneg.2 i hi
    unfold coordGenF coordGen
    simp only [htdef, mul_zero, R.zero, add_zero, R.idem, hx.half.exact R (by norm_num), hy.half.exact R (by norm_num), Int.cast_natCast]
    rw [c1, d1]
    exact ⟨rfl, c2, d2⟩
  have hca : coordsAllF R t ny nx = coordsAll t ny nx := by
    unfold coordsAllF coordsAll
    have : ((List.range ny).flatMap fun (i : Nat) => (List.range nx).map fun (j : Nat) => coordGenF R t i j) =
        (List.range ny).flatMap fun (i : Nat) => (List.range nx).map fun (j : Nat) => coordGen t i j := by
      refine List.flatMap_congr fun i hi => ?_
      refine List.map_congr_left fun j hj => ?_
      exact (hcg i j (List.mem_range.1 hi) (List.mem_range.1 hj)).1
    rw [this]
  rw [hca]
  unfold RGrid.resampleOnto
  dsimp only
  cases hc : coordsAll t ny nx with
  | error er => rfl
  | ok r =>
    obtain ⟨two, pts⟩ := r
    dsimp only
    unfold RGrid.sampleBy RGrid.sampleNearest
    rw [mapM_congr_some (fun p : ℚ × ℚ => indicesRawF R g.t p.1 p.2) (fun p : ℚ × ℚ => indicesRaw g.t p.1 p.2)]
    · rfl
    intro p hp
    have hmem : p ∈ (List.range ny).flatMap fun (i : Nat) => (List.range nx).map fun (j : Nat) => coordGen t i j := by
      unfold coordsAll at hc
      by_cases hz : (ny = 0 ∧ 1 < nx) ∨ (nx = 0 ∧ 1 < ny)
      · rw [if_pos hz] at hc; exact absurd hc (by simp)
      · rw [if_neg hz] at hc
        simp only [Except.ok.injEq, Prod.mk.injEq] at hc
        rw [hc.2]; exact hp
    obtain ⟨i, hi, hm⟩ := List.mem_flatMap.1 hmem
    obtain ⟨j, hj, rfl⟩ := List.mem_map.1 hm
    obtain ⟨-, v1, v2⟩ := hcg i j (List.mem_range.1 hi) (List.mem_range.1 hj)
    exact indices_units R w.sx w.sy w.dx0 w.dy0 (w.dx.finer.mono (by norm_num)) (w.dy.finer.mono (by norm_num))
      (w.x0.finer.mono (by norm_num)) (w.y0.finer.mono (by norm_num)) v1 v2

/-- C144 is violated for cells that are not whole: resampling eleven columns of 0.1 at their own spacing loses the last. -/
theorem C144_violated_resample :
    valuesOf ((tenths 11).bind fun g => (resampleF double 0 0 g tenth 1).getD (.error .other)) =
      .ok [some 0, some 1, some 2, some 3, some 4, some 5, some 6, some 7, some 8, some 9] := by
  decide +kernel

/-- The outcome of `gridpoints`: the size, or the error. -/
def outcome (r : Option (Except Err (RGrid (Option ℚ)))) : Option (Except Err (Nat × Nat)) := r.map fun x => x.map RGrid.size

/-- C144 is violated for cells that are not whole: a point at 1 on a grid of 0.1 cells raises IndexError instead of being counted. -/
theorem C144_violated_gridpoints :
    outcome (gridpointsF double none ⟨0, 0, tenth, 1, 0, 0⟩ [(1, 0, 5)]) = some (.error .indexError) := by
  decide +kernel

/-- The hypotheses are met: a grid of 30 m cells, 7000 by 8000 of them, with its origin in metres. -/
example : WholeUnits 0 ⟨500000, 4100000, 30, -30, 0, 0⟩ 8000 7000 where
  sx := rfl
  sy := rfl
  dx0 := by norm_num
  dy0 := by norm_num
  dx := ⟨30, by norm_num, by norm_num⟩
  dy := ⟨-30, by norm_num, by norm_num⟩
  x0 := ⟨500000, by norm_num, by norm_num⟩
  y0 := ⟨4100000, by norm_num, by norm_num⟩
  width := by norm_num
  height := by norm_num [abs_of_neg]

/-- The hypotheses are met: the edge 1/3 on cells of 0.1 from 0. -/
example : OffCentre 0 (1 / 10) (1 / 3) ∧ InRange (1 / 10) (1 / 3) := by
  constructor
  · intro c
    rcases le_or_gt c 2 with h | h
    · have : (c : ℚ) ≤ 2 := by exact_mod_cast h
      rw [abs_of_nonneg] <;> norm_num <;> linarith
    · have : (3 : ℚ) ≤ c := by exact_mod_cast h
      rw [abs_of_nonpos] <;> norm_num <;> linarith
  · unfold InRange
    rw [abs_of_pos (by norm_num), abs_of_pos (by norm_num)]
    norm_num

/-- In whole units, resampling at the own spacing keeps all columns. -/
example : valuesOf ((oneBand ⟨500000, 4100000, 30, -30, 0, 0⟩ 1 4).bind fun g => (resampleF double 0 0 g 30 30).getD (.error .other)) =
    .ok [some 0, some 1, some 2, some 3] := by decide +kernel

end Karta.Float
