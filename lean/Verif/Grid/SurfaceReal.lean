import Verif.Grid.SurfaceProps
import Mathlib.Analysis.SpecialFunctions.Trigonometric.Basic

/-!
Properties C53 (slope) and C79-C81: the parts of karta/raster/misc.py that need real numbers.
-/

namespace Karta.Surface
open Karta Classical

noncomputable section

/-- The slopes of the interior cells. -/
def inner (D : Arr (Option ℝ)) (dx dy : ℝ) : Arr (Option ℝ) :=
  zip (fun a b => Real.sqrt (a * a + b * b)) (ddx D dx) (ddy D dy)

theorem inner_ny (D : Arr (Option ℝ)) (dx dy : ℝ) : (inner D dx dy).ny = D.ny - 2 := ddx_ny D dx
theorem inner_nx (D : Arr (Option ℝ)) (dx dy : ℝ) : (inner D dx dy).nx = D.nx - 2 := ddx_nx D dx

theorem slope_ok {g : FGrid ℝ} {k : Nat} {D : Arr (Option ℝ)} (hs : g.sx = 0 ∧ g.sy = 0) (hD : masked g k = .ok D)
    (hy : 3 ≤ D.ny) (hx : 3 ≤ D.nx) :
    slope g k = .ok (g.with ⟨D.ny - 2 + 2, D.nx - 2 + 2, fun i j => oddReflect (D.nx - 2)
      (fun c => oddReflect (D.ny - 2) (fun r => (inner D g.dx g.dy).get r c) i) j⟩) := by
  unfold slope slopeArr
  rw [if_pos hs, hD]
  have : padOdd (zip (fun a b => Real.sqrt (a * a + b * b)) (ddx D g.dx) (ddy D g.dy)) =
      .ok ⟨D.ny - 2 + 2, D.nx - 2 + 2, fun i j => oddReflect (D.nx - 2)
        (fun c => oddReflect (D.ny - 2) (fun r => (inner D g.dx g.dy).get r c) i) j⟩ := by
    have e1 : (zip (fun a b => Real.sqrt (a * a + b * b)) (ddx D g.dx) (ddy D g.dy)).ny = D.ny - 2 := ddx_ny D g.dx
    have e2 : (zip (fun a b => Real.sqrt (a * a + b * b)) (ddx D g.dx) (ddy D g.dy)).nx = D.nx - 2 := ddx_nx D g.dx
    unfold padOdd
    rw [if_neg (by omega), e1, e2]
    rfl
  simp only [this]

theorem slope_small {g : FGrid ℝ} {k : Nat} {D : Arr (Option ℝ)} (hs : g.sx = 0 ∧ g.sy = 0) (hD : masked g k = .ok D)
    (h : D.ny < 3 ∨ D.nx < 3) : slope g k = .error .valueError := by
  unfold slope slopeArr
  rw [if_pos hs, hD]
  have : padOdd (zip (fun a b => Real.sqrt (a * a + b * b)) (ddx D g.dx) (ddy D g.dy)) = .error .valueError := by
    have e1 : (zip (fun a b => Real.sqrt (a * a + b * b)) (ddx D g.dx) (ddy D g.dy)).ny = D.ny - 2 := ddx_ny D g.dx
    have e2 : (zip (fun a b => Real.sqrt (a * a + b * b)) (ddx D g.dx) (ddy D g.dy)).nx = D.nx - 2 := ddx_nx D g.dx
    unfold padOdd
    rw [if_pos (by omega)]
  simp only [this]

theorem oddReflect_mid {K : Type _} [Field K] {n : Nat} {f : Nat → Option K} {i : Nat} (h : 1 ≤ i) (h' : i ≤ n) :
    oddReflect n f i = f (i - 1) := by
  unfold oddReflect
  rw [if_neg (by omega), if_neg (by omega)]

theorem oddReflect_const {K : Type _} [Field K] {n : Nat} {f : Nat → Option K} {v : K} (hn : 1 ≤ n)
    (h : ∀ r < n, f r = some v) {i : Nat} (hi : i < n + 2) : oddReflect n f i = some v := by
  unfold oddReflect
  by_cases h0 : i = 0
  · rw [if_pos h0]
    by_cases h1 : n = 1
    · rw [if_pos h1]; exact h 0 (by omega)
    · rw [if_neg h1, h 0 (by omega), h 1 (by omega)]
      simp only [lift2]; congr 1; ring
  rw [if_neg h0]
  by_cases h2 : i = n + 1
  · rw [if_pos h2]
    by_cases h1 : n = 1
    · rw [if_pos h1]; exact h 0 (by omega)
    · rw [if_neg h1, h _ (by omega), h _ (by omega)]
      simp only [lift2]; congr 1; ring
  · rw [if_neg h2]; exact h _ (by omega)

/-- **C53.**  At every interior cell the slope is the length of the gradient, and missing where either component is. -/
theorem C53_slope_interior {g : FGrid ℝ} {k : Nat} {b : Arr (Option ℝ)} (hb : g.bands[k]? = some b)
    (hs : g.sx = 0 ∧ g.sy = 0) (hy : 3 ≤ b.ny) (hx : 3 ≤ b.nx) :
    ∃ sl gx gy, slope g k = .ok sl ∧ gradient g k = .ok (gx, gy) ∧
      ∀ i j, 1 ≤ i → i + 1 < b.ny → 1 ≤ j → j + 1 < b.nx →
        sl.px 0 i j = lift2 (fun u v => Real.sqrt (u ^ 2 + v ^ 2)) (gx.px 0 i j) (gy.px 0 i j) := by
  obtain ⟨D, hD, hny, hnx, _, _⟩ := masked_ok hb
  obtain ⟨s1, s2, s3, s4⟩ := grad_size D g.dx g.dy
  refine ⟨_, _, _, slope_ok hs hD (by omega) (by omega), gradient_ok hs hD, fun i j i1 i2 j1 j2 => ?_⟩
  rw [with_px, with_px, with_px, if_pos (show i < D.ny - 2 + 2 ∧ j < D.nx - 2 + 2 by omega), if_pos (by omega),
    if_pos (by omega)]
  simp only
  rw [oddReflect_mid j1 (by omega), oddReflect_mid i1 (by omega)]
  unfold inner grad padNaN
  simp only [ddx_ny, ddx_nx, ddy_ny, ddy_nx, zip]
  rw [if_pos (by omega), if_pos (by omega)]
  simp only [pow_two]

/-- **C53.**  A grid that holds a plane everywhere has the slope of the plane everywhere, border included. -/
theorem C53_slope_plane {g : FGrid ℝ} {k : Nat} {b : Arr (Option ℝ)} (hb : g.bands[k]? = some b)
    (hs : g.sx = 0 ∧ g.sy = 0) (hdx : g.dx ≠ 0) (hdy : g.dy ≠ 0) (hy : 3 ≤ b.ny) (hx : 3 ≤ b.nx) (p q s : ℝ)
    (hpl : ∀ r c, r < b.ny → c < b.nx → g.IsData r c ∧ b.get r c = some (p + q * centreX g c + s * centreY g r)) :
    ∃ sl, slope g k = .ok sl ∧ ∀ i j, i < b.ny → j < b.nx → sl.px 0 i j = some (Real.sqrt (q ^ 2 + s ^ 2)) := by
  obtain ⟨D, hD, hny, hnx, hdat, _⟩ := masked_ok hb
  obtain ⟨sl, gx, gy, h1, h2, h3⟩ := C53_slope_interior hb hs hy hx
  rw [slope_ok hs hD (by omega) (by omega)] at h1
  cases h1
  refine ⟨_, slope_ok hs hD (by omega) (by omega), fun i j hi hj => ?_⟩
  have hin : ∀ r c, r < D.ny - 2 → c < D.nx - 2 → (inner D g.dx g.dy).get r c = some (Real.sqrt (q ^ 2 + s ^ 2)) := by
    intro r c hr hc
    have h4 := h3 (r + 1) (c + 1) (by omega) (by omega) (by omega) (by omega)
    rw [with_px, if_pos (show r + 1 < D.ny - 2 + 2 ∧ c + 1 < D.nx - 2 + 2 by omega)] at h4
    simp only at h4
    rw [oddReflect_mid (by omega) (by omega), oddReflect_mid (by omega) (by omega)] at h4
    simp only [Nat.add_sub_cancel] at h4
    rw [h4]
    obtain ⟨gx', gy', e1, e2, e3⟩ := C53_plane hb hs hdx hdy p q s (i := r + 1) (j := c + 1) (by omega) (by omega) (by omega)
      (by omega) (fun r' c' _ _ _ _ => hpl r' c' (by omega) (by omega))
    rw [h2] at e1; cases e1
    rw [e2, e3]
    rfl
  rw [with_px, if_pos (show i < D.ny - 2 + 2 ∧ j < D.nx - 2 + 2 by omega)]
  simp only
  refine oddReflect_const (by omega) (fun c hc => ?_) (by omega)
  exact oddReflect_const (by omega) (fun r hr => hin r c hr hc) (by omega)

/-! ### C79: shapes and signs -/

/-- **C79 (partial).**  Slope, gradient and aspect grids have the georeferencing of the input, and its size if it has at least
three rows and columns; smaller input makes `slope` raise ValueError. -/
theorem C79_size_partial {g : FGrid ℝ} {k : Nat} {b : Arr (Option ℝ)} (hb : g.bands[k]? = some b)
    (hs : g.sx = 0 ∧ g.sy = 0) :
    (b.ny < 3 ∨ b.nx < 3 → slope g k = .error .valueError) ∧
    (3 ≤ b.ny → 3 ≤ b.nx → ∃ sl gx gy a, slope g k = .ok sl ∧ gradient g k = .ok (gx, gy) ∧ aspect g k = .ok a ∧
      sl.HasSize 0 b.ny b.nx ∧ gx.HasSize 0 b.ny b.nx ∧ gy.HasSize 0 b.ny b.nx ∧ a.HasSize 0 b.ny b.nx ∧
      sl.SamePlace g ∧ gx.SamePlace g ∧ gy.SamePlace g ∧ a.SamePlace g) := by
  obtain ⟨D, hD, hny, hnx, _, _⟩ := masked_ok hb
  refine ⟨fun h => slope_small hs hD (by omega), fun hy hx => ?_⟩
  obtain ⟨s1, s2, s3, s4⟩ := grad_size D g.dx g.dy
  have ha : aspect g k = .ok (g.with (aspectArr D g.dx g.dy)) := by unfold aspect; rw [if_pos hs, hD]
  have a1 : (aspectArr D g.dx g.dy).ny = D.ny - 2 + 2 := by
    show (ddy D g.dy).ny + 2 = _
    rw [ddy_ny]
  have a2 : (aspectArr D g.dx g.dy).nx = D.nx - 2 + 2 := by
    show (ddy D g.dy).nx + 2 = _
    rw [ddy_nx]
  refine ⟨_, _, _, _, slope_ok hs hD (by omega) (by omega), gradient_ok hs hD, ha,
    ⟨_, rfl, show D.ny - 2 + 2 = _ by omega, show D.nx - 2 + 2 = _ by omega⟩, ⟨_, rfl, by omega, by omega⟩,
    ⟨_, rfl, by omega, by omega⟩, ⟨_, rfl, by omega, by omega⟩, ?_, ?_, ?_, ?_⟩ <;> exact ⟨rfl, rfl, rfl, rfl, rfl, rfl⟩

/-- **C79 is violated by grids of one row**: the gradient has two rows. -/
theorem C79_violated_one_row : ∃ (g gx gy : FGrid ℚ), g.HasSize 0 1 3 ∧ gradient g 0 = .ok (gx, gy) ∧ gx.HasSize 0 2 3 :=
  ⟨⟨0, 0, 1, 1, 0, 0, [⟨1, 3, fun _ _ => some 0⟩], none⟩, _, _, ⟨_, rfl, rfl, rfl⟩, rfl, ⟨_, rfl, by decide, by decide⟩⟩

/-- **C79 (partial).**  Slopes of interior cells are not negative. -/
theorem C79_slope_nonneg_partial {g : FGrid ℝ} {k : Nat} {b : Arr (Option ℝ)} (hb : g.bands[k]? = some b)
    (hs : g.sx = 0 ∧ g.sy = 0) (hy : 3 ≤ b.ny) (hx : 3 ≤ b.nx) :
    ∃ sl, slope g k = .ok sl ∧ ∀ i j v, 1 ≤ i → i + 1 < b.ny → 1 ≤ j → j + 1 < b.nx → sl.px 0 i j = some v → 0 ≤ v := by
  obtain ⟨sl, gx, gy, h1, _, h3⟩ := C53_slope_interior hb hs hy hx
  refine ⟨sl, h1, fun i j v i1 i2 j1 j2 hv => ?_⟩
  rw [h3 i j i1 i2 j1 j2, lift2_eq_some] at hv
  obtain ⟨x, y, _, _, rfl⟩ := hv
  exact Real.sqrt_nonneg _

/-- A step: three rows of 0, 0, 0, 2. -/
def step : FGrid ℝ := ⟨0, 0, 1, 1, 0, 0, [⟨3, 4, fun _ j => if j = 3 then some 2 else some 0⟩], none⟩

/-- **C79 is violated at the border**, where slopes are extrapolated: a slope of -1. -/
theorem C79_violated_negative_slope : ∃ (g sl : FGrid ℝ), g.HasSize 0 3 4 ∧ slope g 0 = .ok sl ∧ sl.px 0 1 0 = some (-1) := by
  have hm : masked step 0 = .ok ⟨3, 4, fun _ j => if j = 3 then some 2 else some 0⟩ := by
    have := masked_with step ⟨3, 4, fun _ j => if j = 3 then some 2 else some 0⟩
    exact this
  refine ⟨step, _, ⟨_, rfl, rfl, rfl⟩, slope_ok ⟨rfl, rfl⟩ hm (by norm_num) (by norm_num), ?_⟩
  rw [with_px, if_pos (show 1 < 3 - 2 + 2 ∧ 0 < 4 - 2 + 2 by omega)]
  have d : step.dx = 1 ∧ step.dy = 1 := ⟨rfl, rfl⟩
  have g0 : (inner ⟨3, 4, fun _ j => if j = 3 then some (2 : ℝ) else some 0⟩ 1 1).get 0 0 = some 0 := by
    unfold inner
    simp only [zip]
    rw [ddx_get _ _ (show 0 + 2 < 3 by omega) (show 0 + 2 < 4 by omega),
      ddy_get _ _ (show 0 + 2 < 3 by omega) (show 0 + 2 < 4 by omega)]
    norm_num [six, lift2]
  have g1 : (inner ⟨3, 4, fun _ j => if j = 3 then some (2 : ℝ) else some 0⟩ 1 1).get 0 1 = some 1 := by
    unfold inner
    simp only [zip]
    rw [ddx_get _ _ (show 0 + 2 < 3 by omega) (show 1 + 2 < 4 by omega),
      ddy_get _ _ (show 0 + 2 < 3 by omega) (show 1 + 2 < 4 by omega)]
    norm_num [six, lift2]
  rw [d.1, d.2]
  simp only [oddReflect]
  norm_num [g0, g1, lift2]

/-! ### C80: aspect -/

/-- The direction in which a surface with gradient `(gx, gy)` falls most steeply, as an angle from the x axis. -/
def downhill (gx gy : ℝ) : ℝ := atan2 (-gy) (-gx)

/-- What `aspect` gives at an interior cell. -/
theorem aspect_get {g : FGrid ℝ} {k : Nat} {b : Arr (Option ℝ)} (hb : g.bands[k]? = some b) (hs : g.sx = 0 ∧ g.sy = 0) :
    ∃ a gx gy, aspect g k = .ok a ∧ gradient g k = .ok (gx, gy) ∧
      ∀ i j, 1 ≤ i → i + 1 < b.ny → 1 ≤ j → j + 1 < b.nx →
        a.px 0 i j = lift2 (fun u v => atan2 v (-u)) (gx.px 0 i j) (gy.px 0 i j) := by
  obtain ⟨D, hD, hny, hnx, _, _⟩ := masked_ok hb
  obtain ⟨s1, s2, s3, s4⟩ := grad_size D g.dx g.dy
  have ha : aspect g k = .ok (g.with (aspectArr D g.dx g.dy)) := by unfold aspect; rw [if_pos hs, hD]
  have a1 : (aspectArr D g.dx g.dy).ny = D.ny - 2 + 2 := by
    show (ddy D g.dy).ny + 2 = _
    rw [ddy_ny]
  have a2 : (aspectArr D g.dx g.dy).nx = D.nx - 2 + 2 := by
    show (ddy D g.dy).nx + 2 = _
    rw [ddy_nx]
  refine ⟨_, _, _, ha, gradient_ok hs hD, fun i j i1 i2 j1 j2 => ?_⟩
  rw [with_px, with_px, with_px, if_pos (by omega), if_pos (by omega), if_pos (by omega)]
  unfold aspectArr grad padNaN
  simp only [ddx_ny, ddx_nx, ddy_ny, ddy_nx, zip]
  rw [if_pos (by omega), if_pos (by omega), if_pos (by omega)]
  cases (ddx D g.dx).get (i - 1) (j - 1) <;> cases (ddy D g.dy).get (i - 1) (j - 1) <;> rfl

/-- **C80 (partial).**  On interior cells where the surface is level from south to north, the aspect is the direction of
steepest descent. -/
theorem C80_east_west_partial {g : FGrid ℝ} {k : Nat} {b : Arr (Option ℝ)} (hb : g.bands[k]? = some b)
    (hs : g.sx = 0 ∧ g.sy = 0) :
    ∃ a gx gy, aspect g k = .ok a ∧ gradient g k = .ok (gx, gy) ∧
      ∀ i j u, 1 ≤ i → i + 1 < b.ny → 1 ≤ j → j + 1 < b.nx → gx.px 0 i j = some u → gy.px 0 i j = some 0 →
        a.px 0 i j = some (downhill u 0) := by
  obtain ⟨a, gx, gy, h1, h2, h3⟩ := aspect_get hb hs
  refine ⟨a, gx, gy, h1, h2, fun i j u i1 i2 j1 j2 hu hv => ?_⟩
  rw [h3 i j i1 i2 j1 j2, hu, hv]
  simp [lift2, downhill]

/-- **C80 (partial).**  In general the aspect of an interior cell is the direction of steepest descent of the mirror image
of the surface, north and south exchanged. -/
theorem C80_mirrored_partial {g : FGrid ℝ} {k : Nat} {b : Arr (Option ℝ)} (hb : g.bands[k]? = some b)
    (hs : g.sx = 0 ∧ g.sy = 0) :
    ∃ a gx gy, aspect g k = .ok a ∧ gradient g k = .ok (gx, gy) ∧
      ∀ i j u v, 1 ≤ i → i + 1 < b.ny → 1 ≤ j → j + 1 < b.nx → gx.px 0 i j = some u → gy.px 0 i j = some v →
        a.px 0 i j = some (downhill u (-v)) := by
  obtain ⟨a, gx, gy, h1, h2, h3⟩ := aspect_get hb hs
  refine ⟨a, gx, gy, h1, h2, fun i j u v i1 i2 j1 j2 hu hv => ?_⟩
  rw [h3 i j i1 i2 j1 j2, hu, hv]
  simp [lift2, downhill]

/-- A surface that rises to the north: its height is the y coordinate of the cell centre. -/
def northUp : FGrid ℝ := ⟨0, 0, 1, 1, 0, 0, [⟨3, 3, fun i _ => some ((i : ℝ) + 1 / 2)⟩], none⟩

/-- **C80 is violated by a surface that rises to the north**: it falls towards the south, and its aspect is north. -/
theorem C80_violated_north : ∃ (g a gx gy : FGrid ℝ), aspect g 0 = .ok a ∧ gradient g 0 = .ok (gx, gy) ∧
    gx.px 0 1 1 = some 0 ∧ gy.px 0 1 1 = some 1 ∧ downhill 0 1 = -(Real.pi / 2) ∧ a.px 0 1 1 = some (Real.pi / 2) := by
  obtain ⟨a, gx, gy, h1, h2, h3⟩ := C80_mirrored_partial (g := northUp) (k := 0) rfl ⟨rfl, rfl⟩
  obtain ⟨gx', gy', e1, e2, e3⟩ := C53_plane (g := northUp) (k := 0) rfl ⟨rfl, rfl⟩ (by simp [northUp]) (by simp [northUp])
    0 0 1 (i := 1) (j := 1) (by omega) (by decide) (by omega) (by decide) (fun r c _ _ _ _ => by
      refine ⟨fun b hb => ?_, ?_⟩
      · simp only [northUp, List.mem_singleton] at hb
        subst hb; simp [northUp]
      · simp [northUp, centreY])
  rw [h2] at e1; cases e1
  refine ⟨northUp, a, gx, gy, h1, h2, e2, e3, ?_, ?_⟩
  · have : (⟨-0, -1⟩ : ℂ) = -Complex.I := by apply Complex.ext <;> simp
    unfold downhill atan2
    rw [this, Complex.arg_neg_I]
  · rw [h3 1 1 0 1 (by omega) (by decide) (by omega) (by decide) e2 e3]
    have : (⟨-0, - -1⟩ : ℂ) = Complex.I := by apply Complex.ext <;> simp
    unfold downhill atan2
    rw [this, Complex.arg_I]

/-! ### C81: normalised vectors -/

theorem padNaN_map_get {α : Type _} {K : Type _} (A : Arr α) (f : α → Option K) (i j : Nat) :
    (padNaN (A.map f)).get i j =
    if 1 ≤ i ∧ i ≤ A.ny ∧ 1 ≤ j ∧ j ≤ A.nx then f (A.get (i - 1) (j - 1)) else none := rfl

theorem mem_numbers {A : Arr (Option ℝ)} {x : ℝ} : x ∈ numbers A ↔ ∃ i j, i < A.ny ∧ j < A.nx ∧ A.get i j = some x := by
  unfold numbers
  simp only [List.mem_filterMap, List.mem_flatMap, List.mem_map, List.mem_range, id]
  constructor
  · rintro ⟨o, ⟨i, hi, j, hj, rfl⟩, ho⟩; exact ⟨i, j, hi, hj, ho⟩
  · rintro ⟨i, j, hi, hj, h⟩; exact ⟨_, ⟨i, hi, j, hj, rfl⟩, h⟩

theorem foldl_max_spec : ∀ (l : List ℝ) (x : ℝ), (l.foldl max x = x ∨ l.foldl max x ∈ l) ∧ x ≤ l.foldl max x ∧
    ∀ y ∈ l, y ≤ l.foldl max x
  | [], x => ⟨Or.inl rfl, le_refl _, fun _ h => by cases h⟩
  | y :: l, x => by
    obtain ⟨h1, h2, h3⟩ := foldl_max_spec l (max x y)
    refine ⟨?_, (le_max_left x y).trans h2, fun z hz => ?_⟩
    · rcases h1 with h | h
      · rcases max_choice x y with hm | hm
        · left; simp only [List.foldl_cons]; rw [h, hm]
        · right; simp only [List.foldl_cons]; rw [h, hm]; exact List.mem_cons_self
      · right; exact List.mem_cons_of_mem _ h
    · rcases List.mem_cons.mp hz with rfl | hz
      · exact (le_max_right x z).trans h2
      · exact h3 z hz

theorem maxL_spec {l : List ℝ} {m : ℝ} (h : maxL l = some m) : m ∈ l ∧ ∀ y ∈ l, y ≤ m := by
  cases l with
  | nil => cases h
  | cons x l =>
    simp only [maxL, Option.some.injEq] at h
    subst h
    obtain ⟨h1, h2, h3⟩ := foldl_max_spec l x
    refine ⟨?_, fun y hy => ?_⟩
    · rcases h1 with h | h
      · rw [h]; exact List.mem_cons_self
      · exact List.mem_cons_of_mem _ h
    · rcases List.mem_cons.mp hy with rfl | hy
      · exact h2
      · exact h3 y hy

/-- **C81 (partial).**  Where both components are numbers the vector is at most one long, and, unless the surface is flat,
one vector is exactly one long. -/
theorem C81_unit_partial {D : Arr (Option ℝ)} {dx dy : ℝ} {U V : Arr (Option ℝ)} (h : normed D dx dy = .ok (U, V)) :
    (∀ i j u v, U.get i j = some u → V.get i j = some v → u ^ 2 + v ^ 2 ≤ 1) ∧
    ((∃ i j u v, U.get i j = some u ∧ V.get i j = some v ∧ u ^ 2 + v ^ 2 = 1) ∨
      ∀ i j, U.get i j = none ∧ V.get i j = none) := by
  unfold normed at h
  cases hm : maxL (numbers (zip (fun a b => Real.sqrt (a ^ 2 + b ^ 2)) (ddx D dx) (ddy D dy))) with
  | none => rw [hm] at h; cases h
  | some m =>
    rw [hm] at h
    simp only at h
    injection h with h
    obtain ⟨m1, m2⟩ := maxL_spec hm
    rw [mem_numbers] at m1
    obtain ⟨i0, j0, hi0, hj0, hg0⟩ := m1
    have hi0' : i0 < (ddx D dx).ny := hi0
    have hj0' : j0 < (ddx D dx).nx := hj0
    obtain ⟨x0, y0, hx0, hy0, hm0⟩ := lift2_eq_some.mp hg0
    have hmn : 0 ≤ m := by rw [← hm0]; exact Real.sqrt_nonneg _
    have hu : ∀ i j u, U.get i j = some u → ∃ x, 1 ≤ i ∧ i ≤ (ddx D dx).ny ∧ 1 ≤ j ∧ j ≤ (ddx D dx).nx ∧ m ≠ 0 ∧
        (ddx D dx).get (i - 1) (j - 1) = some x ∧ u = x / m := by
      intro i j u hu
      have : U = padNaN ((ddx D dx).map fun v => if m = 0 then none else v.map (· / m)) := by
        have := congrArg Prod.fst h; exact this.symm
      rw [this, padNaN_map_get] at hu
      by_cases hc : 1 ≤ i ∧ i ≤ (ddx D dx).ny ∧ 1 ≤ j ∧ j ≤ (ddx D dx).nx
      · rw [if_pos hc] at hu
        by_cases hz : m = 0
        · rw [if_pos hz] at hu; cases hu
        · rw [if_neg hz, Option.map_eq_some_iff] at hu
          obtain ⟨x, hx, rfl⟩ := hu
          exact ⟨x, hc.1, hc.2.1, hc.2.2.1, hc.2.2.2, hz, hx, rfl⟩
      · rw [if_neg hc] at hu; cases hu
    have hv : ∀ i j u, V.get i j = some u → ∃ x, 1 ≤ i ∧ i ≤ (ddy D dy).ny ∧ 1 ≤ j ∧ j ≤ (ddy D dy).nx ∧ m ≠ 0 ∧
        (ddy D dy).get (i - 1) (j - 1) = some x ∧ u = x / m := by
      intro i j u hu
      have : V = padNaN ((ddy D dy).map fun v => if m = 0 then none else v.map (· / m)) := by
        have := congrArg Prod.snd h; exact this.symm
      rw [this, padNaN_map_get] at hu
      by_cases hc : 1 ≤ i ∧ i ≤ (ddy D dy).ny ∧ 1 ≤ j ∧ j ≤ (ddy D dy).nx
      · rw [if_pos hc] at hu
        by_cases hz : m = 0
        · rw [if_pos hz] at hu; cases hu
        · rw [if_neg hz, Option.map_eq_some_iff] at hu
          obtain ⟨x, hx, rfl⟩ := hu
          exact ⟨x, hc.1, hc.2.1, hc.2.2.1, hc.2.2.2, hz, hx, rfl⟩
      · rw [if_neg hc] at hu; cases hu
    constructor
    · intro i j u v hU hV
      obtain ⟨x, i1, i2, j1, j2, hz, hx, rfl⟩ := hu i j u hU
      obtain ⟨y, _, _, _, _, _, hy, rfl⟩ := hv i j v hV
      have hle : Real.sqrt (x ^ 2 + y ^ 2) ≤ m := m2 _ (mem_numbers.mpr ⟨i - 1, j - 1,
        show i - 1 < (ddx D dx).ny by omega, show j - 1 < (ddx D dx).nx by omega, by
          show lift2 _ _ _ = _
          rw [hx, hy]; rfl⟩)
      have hmp : 0 < m := lt_of_le_of_ne hmn (Ne.symm hz)
      have h2 : x ^ 2 + y ^ 2 ≤ m ^ 2 := (Real.sqrt_le_left hmn).mp hle
      rw [div_pow, div_pow, ← add_div, div_le_one (by positivity)]
      exact h2
    · by_cases hz : m = 0
      · right
        intro i j
        constructor
        · cases hc : U.get i j with
          | none => rfl
          | some u => exact absurd hz (hu i j u hc).choose_spec.2.2.2.2.1
        · cases hc : V.get i j with
          | none => rfl
          | some u => exact absurd hz (hv i j u hc).choose_spec.2.2.2.2.1
      · left
        have hU : U.get (i0 + 1) (j0 + 1) = some (x0 / m) := by
          have : U = padNaN ((ddx D dx).map fun v => if m = 0 then none else v.map (· / m)) := by
            have := congrArg Prod.fst h; exact this.symm
          rw [this, padNaN_map_get, if_pos (by omega), if_neg hz, Nat.add_sub_cancel, Nat.add_sub_cancel, hx0]; rfl
        have hV : V.get (i0 + 1) (j0 + 1) = some (y0 / m) := by
          have : V = padNaN ((ddy D dy).map fun v => if m = 0 then none else v.map (· / m)) := by
            have := congrArg Prod.snd h; exact this.symm
          rw [ddx_ny] at hi0'
          rw [ddx_nx] at hj0'
          rw [this, padNaN_map_get, if_pos (by rw [ddy_ny, ddy_nx]; omega), if_neg hz, Nat.add_sub_cancel, Nat.add_sub_cancel, hy0]; rfl
        refine ⟨i0 + 1, j0 + 1, _, _, hU, hV, ?_⟩
        have hsq : x0 ^ 2 + y0 ^ 2 = m ^ 2 := by
          rw [← hm0, Real.sq_sqrt (by positivity)]
        rw [div_pow, div_pow, ← add_div, hsq, div_self (by positivity)]

/-- Three rows of 0, 0, 10, 10, 12 with a hole in the second column. -/
def holedStep : Arr (Option ℝ) :=
  ⟨3, 5, fun i j => if i = 0 ∧ j = 1 then none else if j = 4 then some 12 else if 2 ≤ j then some 10 else some 0⟩

/-- **C81 is violated beside missing values**: where only one component can be computed it is not normalised. -/
theorem C81_violated_lone_component : ∃ (D U V : Arr (Option ℝ)), normed D 1 1 = .ok (U, V) ∧
    U.get 1 1 = some 5 ∧ V.get 1 1 = none := by
  have a0 : (ddx holedStep 1).get 0 0 = some 5 := by
    rw [ddx_get _ _ (show 0 + 2 < 3 by omega) (show 0 + 2 < 5 by omega)]
    norm_num [holedStep, six, lift2]
  have b0 : (ddy holedStep 1).get 0 0 = none := by
    rw [ddy_get _ _ (show 0 + 2 < 3 by omega) (show 0 + 2 < 5 by omega)]
    norm_num [holedStep, six, lift2]
  have a1 : (ddx holedStep 1).get 0 1 = none := by
    rw [ddx_get _ _ (show 0 + 2 < 3 by omega) (show 1 + 2 < 5 by omega)]
    norm_num [holedStep, six, lift2]
  have a2 : (ddx holedStep 1).get 0 2 = some 1 := by
    rw [ddx_get _ _ (show 0 + 2 < 3 by omega) (show 2 + 2 < 5 by omega)]
    norm_num [holedStep, six, lift2]
  have b2 : (ddy holedStep 1).get 0 2 = some 0 := by
    rw [ddy_get _ _ (show 0 + 2 < 3 by omega) (show 2 + 2 < 5 by omega)]
    norm_num [holedStep, six, lift2]
  have hn : numbers (zip (fun a b => Real.sqrt (a ^ 2 + b ^ 2)) (ddx holedStep 1) (ddy holedStep 1)) = [1] := by
    unfold numbers
    have e1 : (zip (fun a b => Real.sqrt (a ^ 2 + b ^ 2)) (ddx holedStep 1) (ddy holedStep 1)).ny = 1 := ddx_ny holedStep 1
    have e2 : (zip (fun a b => Real.sqrt (a ^ 2 + b ^ 2)) (ddx holedStep 1) (ddy holedStep 1)).nx = 3 := ddx_nx holedStep 1
    rw [e1, e2]
    have r3 : List.range 3 = [0, 1, 2] := rfl
    have r1 : List.range 1 = [0] := rfl
    simp [r3, r1, zip, a0, a1, a2, b0, b2, lift2]
  refine ⟨holedStep, padNaN ((ddx holedStep 1).map fun v => if (1 : ℝ) = 0 then none else v.map (· / 1)),
    padNaN ((ddy holedStep 1).map fun v => if (1 : ℝ) = 0 then none else v.map (· / 1)), ?_, ?_, ?_⟩
  · unfold normed
    rw [hn]
    rfl
  · rw [padNaN_map_get, if_pos (by rw [ddx_ny, ddx_nx]; decide), a0]
    norm_num
  · rw [padNaN_map_get, if_pos (by rw [ddy_ny, ddy_nx]; decide), b0]
    norm_num

/-- The hypotheses of C81 are met. -/
example : ∃ D U V, normed D 1 1 = .ok (U, V) ∧ U.get 1 1 = some 5 := by
  obtain ⟨D, U, V, h, h', _⟩ := C81_violated_lone_component
  exact ⟨D, U, V, h, h'⟩

/-- The hypotheses of C53, C79 and C80 are met by a plane of slope 3 east and 4 north on a grid of four by five cells. -/
def ramp : Arr (Option ℝ) := ⟨4, 5, fun r c => some (1 + 3 * (0 + ((c : ℝ) + 1 / 2) * 2) + 4 * (0 + ((r : ℝ) + 1 / 2) * 2))⟩
def rampGrid : FGrid ℝ := ⟨0, 0, 2, 2, 0, 0, [ramp], none⟩

example : ∃ sl, slope rampGrid 0 = .ok sl ∧ sl.px 0 0 3 = some 5 := by
  obtain ⟨sl, h, h'⟩ := C53_slope_plane (g := rampGrid) (k := 0) (b := ramp) rfl ⟨rfl, rfl⟩ (by norm_num [rampGrid]) (by norm_num [rampGrid]) (by decide) (by decide)
    1 3 4 fun r c _ _ => ⟨fun b hb => by
      simp only [rampGrid, List.mem_cons, List.not_mem_nil, or_false] at hb ⊢
      subst hb
      simp [ramp], rfl⟩
  refine ⟨sl, h, (h' 0 3 (by decide) (by decide)).trans ?_⟩
  rw [show (3 : ℝ) ^ 2 + 4 ^ 2 = 5 ^ 2 by norm_num, Real.sqrt_sq (by norm_num)]
example := C53_slope_interior (g := rampGrid) (k := 0) (b := ramp) rfl ⟨rfl, rfl⟩ (by decide) (by decide)
example := (C79_size_partial (g := rampGrid) (k := 0) (b := ramp) rfl ⟨rfl, rfl⟩).2 (by decide) (by decide)
example := C79_slope_nonneg_partial (g := rampGrid) (k := 0) (b := ramp) rfl ⟨rfl, rfl⟩ (by decide) (by decide)
example := C80_mirrored_partial (g := rampGrid) (k := 0) (b := ramp) rfl ⟨rfl, rfl⟩
example := C80_east_west_partial (g := rampGrid) (k := 0) (b := ramp) rfl ⟨rfl, rfl⟩

end

end Karta.Surface
