import Verif.Grid.Resample
import Verif.Grid.SampleProps
import Verif.Grid.CodecProps

/-!
Properties C110-C116 of the whole-grid operations: resampling, arithmetic, extent of the data and
extreme values.
-/

namespace Karta.Grid
open Karta Karta.Band Karta.Band.Spec

variable {α : Type _}

/-! ### Sampling the centres of a grid -/

theorem flat_getElem? {β : Type _} (f : Nat → Nat → β) (ny nx i j : Nat) (hi : i < ny) (hj : j < nx) :
    ((List.range ny).flatMap fun i => (List.range nx).map fun j => f i j)[i * nx + j]? = some (f i j) := by
  induction ny with
  | zero => omega
  | succ n ih =>
    have hl : ((List.range n).flatMap fun i => (List.range nx).map fun j => f i j).length = n * nx := by
      simp [List.length_flatMap]
    rw [List.range_succ, List.flatMap_append]
    rcases Nat.lt_or_ge i n with h | h
    · rw [List.getElem?_append_left (by rw [hl]; nlinarith)]
      exact ih h
    · obtain rfl : i = n := by omega
      rw [List.getElem?_append_right (by rw [hl]; omega), hl]
      simp [hj]

theorem flat_length {β : Type _} (f : Nat → Nat → β) (ny nx : Nat) :
    ((List.range ny).flatMap fun i => (List.range nx).map fun j => f i j).length = ny * nx := by
  simp [List.length_flatMap]

theorem coordGen_eq (T : Xform) (i j : Int) : coordGen T i j = centerCoord T i j := by
  simp only [coordGen, centerCoord, Prod.mk.injEq]
  constructor <;> ring

/-- The centres of an `ny × nx` grid, row by row. -/
def centres (T : Xform) (ny nx : Nat) : List (ℚ × ℚ) :=
  (List.range ny).flatMap fun (i : Nat) => (List.range nx).map fun (j : Nat) => centerCoord T i j

theorem centres_get (T : Xform) {ny nx i j : Nat} (hi : i < ny) (hj : j < nx) :
    (centres T ny nx)[i * nx + j]? = some (centerCoord T i j) := by
  unfold centres
  exact flat_getElem? (fun i j : Nat => centerCoord T i j) ny nx i j hi hj

theorem centres_length (T : Xform) (ny nx : Nat) : (centres T ny nx).length = ny * nx := by
  unfold centres
  exact flat_length (fun i j : Nat => centerCoord T i j) ny nx

theorem mem_centres (T : Xform) {ny nx i j : Nat} (hi : i < ny) (hj : j < nx) :
    centerCoord T i j ∈ centres T ny nx := List.mem_of_getElem? (centres_get T hi hj)

theorem coordsAll_eq (T : Xform) {ny nx : Nat} (hy : 0 < ny) (hx : 0 < nx) :
    coordsAll T ny nx = .ok (decide (1 < ny ∧ 1 < nx), centres T ny nx) := by
  unfold coordsAll
  rw [if_neg (by omega)]
  simp only [coordGen_eq, centres]

/-- With two-dimensional coordinates the bands of the new grid are the sampled lists, cut into rows. -/
theorem fromValues_two (zero garb : α) (t : Xform) (nd : α) (ny nx : Nat) (out : List (List α)) (hp : 0 < out.length)
    (hl : ∀ (k : Nat) vs, out[k]? = some vs → vs.length = ny * nx) :
    ∃ g' Ps', fromValues zero garb t nd (asValues true ny nx out) = .ok g' ∧ g'.t = t ∧ g'.nodata = nd ∧
      g'.Holds ny nx Ps' ∧ Ps'.length = out.length ∧
      ∀ (k : Nat) P' vs, Ps'[k]? = some P' → out[k]? = some vs → ∀ i j : Nat, i < ny → j < nx →
        vs[i * nx + j]? = some (P' i j) := by
  obtain ⟨g', Ps', e, e1, e2, e3, e4, e5⟩ := fromValues_spec zero garb t nd (asValues true ny nx out) ny nx
    out.length hp rfl (fun i j k => (((out[k]?).bind fun vs => vs[i * nx + j]?)).getD garb) (by
      intro i j k hi hj hk
      obtain ⟨vs, hvs⟩ : ∃ vs, out[k]? = some vs := ⟨_, List.getElem?_eq_getElem hk⟩
      have hlt : i * nx + j < vs.length := by rw [hl k vs hvs]; nlinarith
      simp [asValues, hvs, List.getElem?_eq_getElem hlt])
  refine ⟨g', Ps', e, e1, e2, e3, e4, ?_⟩
  intro k P' vs hP' hvs i j hi hj
  have hlt : i * nx + j < vs.length := by rw [hl k vs hvs]; nlinarith
  rw [e5 k P' hP' i j hi hj]
  simp [hvs, List.getElem?_eq_getElem hlt]

/-- With one-dimensional coordinates every band becomes one row. -/
theorem fromValues_one (zero garb : α) (t : Xform) (nd : α) (ny nx : Nat) (vs : List α) (hl : vs.length = ny * nx) :
    ∃ g' P', fromValues zero garb t nd (asValues false ny nx [vs]) = .ok g' ∧ g'.t = t ∧ g'.nodata = nd ∧
      g'.Holds 1 (ny * nx) [P'] ∧ ∀ s : Nat, s < ny * nx → vs[s]? = some (P' 0 s) := by
  obtain ⟨g', P', e, e1, e2, e3, e4⟩ := fromValues2_spec zero garb t nd (asValues false ny nx [vs]) 1 (ny * nx) rfl
    (fun _ s => (vs[s]?).getD garb) (by
      intro k s hk hs
      obtain rfl : k = 0 := by omega
      have : s < vs.length := by omega
      simp [asValues, List.getElem?_eq_getElem this])
  refine ⟨g', P', e, e1, e2, e3, ?_⟩
  intro s hs
  have hlt : s < vs.length := by omega
  have := e4 0 s (by omega) hs
  rw [show ((0 : Nat) : Int) = 0 from rfl] at this
  rw [this]
  simp [List.getElem?_eq_getElem hlt]

/-- Sampling a single band on the centres of an `ny × nx` grid with several columns, or with one row,
makes a grid of that size. -/
theorem resampleOnto_spec {g : RGrid α} (zero garb : α) (kern : Arr α → ℚ → ℚ → Except Err α) (m : Method)
    (t : Xform) (ny nx : Nat) (hny : 0 < ny) (hnx : 0 < nx) (hsz : 1 < nx ∨ ny = 1) (vs : List α)
    (hs : g.sampleBy kern garb (centres t ny nx) m = some (.ok [vs])) (hl : vs.length = ny * nx) :
    ∃ g' P', g.resampleOnto zero garb kern m t ny nx = some (.ok g') ∧ g'.t = t ∧ g'.nodata = g.nodata ∧
      g'.Holds ny nx [P'] ∧ ∀ i j : Nat, i < ny → j < nx → vs[i * nx + j]? = some (P' i j) := by
  unfold RGrid.resampleOnto
  rw [coordsAll_eq t hny hnx]
  simp only [hs, Option.map_some, Option.some.injEq]
  by_cases h1 : ny = 1
  · subst h1
    rw [decide_eq_false (by omega)]
    obtain ⟨g', P', e, e1, e2, e3, e4⟩ := fromValues_one zero garb t g.nodata 1 nx vs hl
    rw [one_mul] at e3 e4
    refine ⟨g', P', e, e1, e2, e3, ?_⟩
    intro i j hi hj
    obtain rfl : i = 0 := by omega
    simpa using e4 j hj
  · rw [decide_eq_true (by omega)]
    obtain ⟨g', Ps', e, e1, e2, e3, e4, e5⟩ := fromValues_two zero garb t g.nodata ny nx [vs] (by simp) (by
      intro k ws hk
      cases k with
      | zero => simp only [List.getElem?_cons_zero, Option.some.injEq] at hk; rw [← hk, hl]
      | succ k => simp at hk)
    match Ps', e4 with
    | [P'], _ =>
      refine ⟨g', P', e, e1, e2, e3, ?_⟩
      intro i j hi hj
      exact e5 0 P' vs rfl rfl i j hi hj

/-- Nearest-centre sampling of a single band onto the centres of another grid. -/
theorem resampleOnto_nearest {g : RGrid α} {H W : Nat} {P : Int → Int → α} (hg : g.Holds H W [P])
    (hT : g.t.Regular) (zero garb : α) (kern : Arr α → ℚ → ℚ → Except Err α)
    (t : Xform) (ny nx : Nat) (hny : 0 < ny) (hnx : 0 < nx) (hsz : 1 < nx ∨ ny = 1)
    (hin : SomeInside g.t H W (centres t ny nx)) :
    ∃ g' P', g.resampleOnto zero garb kern .nearest t ny nx = some (.ok g') ∧ g'.t = t ∧ g'.nodata = g.nodata ∧
      g'.Holds ny nx [P'] ∧ ∀ i j : Nat, i < ny → j < nx →
        ∃ a b, g.t.InClosedCell a b (centerCoord t i j) ∧ P' i j = cellValue H W g.nodata P a b := by
  obtain ⟨out, o1, o2, o3⟩ := C17_vector_partial hg hT garb (centres t ny nx) hin (Or.inl rfl)
  match out, o2 with
  | [vs], _ =>
    have hl : vs.length = ny * nx := by
      obtain ⟨ws, w1, w2, -⟩ := o3 0 0 P (centerCoord t 0 0) rfl (by simpa using centres_get t hny hnx)
      simp only [List.getElem?_cons_zero, Option.some.injEq] at w1
      rw [w1, w2, centres_length]
    obtain ⟨g', P', e, e1, e2, e3, e4⟩ := resampleOnto_spec zero garb kern .nearest t ny nx hny hnx hsz vs o1 hl
    refine ⟨g', P', e, e1, e2, e3, ?_⟩
    intro i j hi hj
    obtain ⟨ws, w1, -, a, b, hc, hv⟩ := o3 0 (i * nx + j) P (centerCoord t i j) rfl (centres_get t hi hj)
    simp only [List.getElem?_cons_zero, Option.some.injEq] at w1
    subst w1
    rw [e4 i j hi hj] at hv
    exact ⟨a, b, hc, Option.some.inj hv⟩

/-! ### Where the new centres lie -/

/-- A grid without skew and with non-zero spacing. -/
structure Xform.Plain (T : Xform) : Prop where
  dx : T.dx ≠ 0
  dy : T.dy ≠ 0
  sx : T.sx = 0
  sy : T.sy = 0

theorem Xform.Plain.regular {T : Xform} (h : T.Plain) : T.Regular := by
  refine ⟨?_, h.dy⟩
  rw [h.sx, h.sy]
  simp [h.dx, h.dy]

theorem Xform.Plain.aligned {T : Xform} (h : T.Plain) : T.Aligned := ⟨Or.inl h.sx, Or.inl h.sy⟩

theorem tightRange_unique {f : Nat → Nat → ℚ} {ny nx : Nat} {a b a' b' : ℚ} (h : TightRange f ny nx a b)
    (h' : TightRange f ny nx a' b') : a = a' ∧ b = b' := by
  obtain ⟨h1, ⟨i, j, hi, hj, e⟩, ⟨k, l, hk, hl, e'⟩⟩ := h
  obtain ⟨g1, ⟨i', j', hi', hj', f1⟩, ⟨k', l', hk', hl', f2⟩⟩ := h'
  constructor
  · exact le_antisymm (by rw [← f1]; exact (h1 _ _ hi' hj').1) (by rw [← e]; exact (g1 _ _ hi hj).1)
  · exact le_antisymm (by rw [← e']; exact (g1 _ _ hk hl).2) (by rw [← f2]; exact (h1 _ _ hk' hl').2)

theorem tightRange_le {f : Nat → Nat → ℚ} {ny nx : Nat} {a b : ℚ} (h : TightRange f ny nx a b) : a ≤ b := by
  obtain ⟨h1, ⟨i, j, hi, hj, e⟩, -⟩ := h
  rw [← e]
  exact (h1 i j hi hj).2

/-- A coordinate between those of two positions has a position between them. -/
theorem axis_between {x0 d j l v : ℚ} (hd : d ≠ 0) (h1 : x0 + (j + 1 / 2) * d ≤ x0 + (v + 1 / 2) * d)
    (h2 : x0 + (v + 1 / 2) * d ≤ x0 + (l + 1 / 2) * d) : min j l ≤ v ∧ v ≤ max j l := by
  rcases lt_or_gt_of_ne hd with h | h
  · have a : v ≤ j := by nlinarith
    have b : l ≤ v := by nlinarith
    exact ⟨(min_le_right _ _).trans b, a.trans (le_max_left _ _)⟩
  · have a : j ≤ v := by nlinarith
    have b : v ≤ l := by nlinarith
    exact ⟨(min_le_left _ _).trans a, b.trans (le_max_right _ _)⟩

/-- The smallest and largest coordinates of the cell centres. -/
structure Box (T : Xform) (H W : Nat) (xmin xmax ymin ymax : ℚ) : Prop where
  x : TightRange (fun i j => (centerCoord T i j).1) H W xmin xmax
  y : TightRange (fun i j => (centerCoord T i j).2) H W ymin ymax

/-- The points between the extreme centres are those in the hull of the centres. -/
theorem box_position {T : Xform} (hT : T.Plain) {H W : Nat} {xmin xmax ymin ymax : ℚ}
    (hb : Box T H W xmin xmax ymin ymax) {X Y : ℚ} (h1 : xmin ≤ X) (h2 : X ≤ xmax) (h3 : ymin ≤ Y) (h4 : Y ≤ ymax) :
    ∃ u v, InHull H W u v ∧ (X, Y) = T.point u v := by
  have ex : ∀ v, T.x0 + v * T.dx + ((X - T.x0) / T.dx - v) * T.dx = X := by
    intro v; have := div_mul_cancel₀ (X - T.x0) hT.dx; linear_combination this
  have ey : ∀ v, T.y0 + v * T.dy + ((Y - T.y0) / T.dy - v) * T.dy = Y := by
    intro v; have := div_mul_cancel₀ (Y - T.y0) hT.dy; linear_combination this
  have eX : X = T.x0 + ((X - T.x0) / T.dx - 1 / 2 + 1 / 2) * T.dx := by linear_combination -(ex 0)
  have eY : Y = T.y0 + ((Y - T.y0) / T.dy - 1 / 2 + 1 / 2) * T.dy := by linear_combination -(ey 0)
  obtain ⟨-, ⟨i, j, hi, hj, a1⟩, ⟨k, l, hk, hl, a2⟩⟩ := hb.x
  obtain ⟨-, ⟨i', j', hi', hj', b1⟩, ⟨k', l', hk', hl', b2⟩⟩ := hb.y
  simp only [centerCoord, hT.sx, hT.sy, mul_zero, add_zero, Int.cast_natCast] at a1 a2 b1 b2
  obtain ⟨p1, p2⟩ := axis_between (x0 := T.x0) (d := T.dx) (j := j) (l := l) (v := (X - T.x0) / T.dx - 1 / 2) hT.dx
    (by rw [← eX, a1]; exact h1) (by rw [← eX, a2]; exact h2)
  obtain ⟨q1, q2⟩ := axis_between (x0 := T.y0) (d := T.dy) (j := i') (l := k') (v := (Y - T.y0) / T.dy - 1 / 2) hT.dy
    (by rw [← eY, b1]; exact h3) (by rw [← eY, b2]; exact h4)
  have cast_le : ∀ {a n : Nat}, a < n → (a : ℚ) ≤ (n : ℚ) - 1 := by
    intro a n h
    have : ((a + 1 : Nat) : ℚ) ≤ (n : ℚ) := by exact_mod_cast h
    push_cast at this
    linarith
  refine ⟨(Y - T.y0) / T.dy - 1 / 2, (X - T.x0) / T.dx - 1 / 2,
    ⟨(le_min (by positivity) (by positivity)).trans q1, q2.trans (max_le (cast_le hi') (cast_le hk')),
     (le_min (by positivity) (by positivity)).trans p1, p2.trans (max_le (cast_le hj) (cast_le hl))⟩, ?_⟩
  simp only [Xform.point, Xform.at, hT.sx, hT.sy, mul_zero, add_zero, Prod.mk.injEq]
  exact ⟨eX, eY⟩

/-- A closed cell containing a point of the hull of the centres is a cell of the grid. -/
theorem hull_cell {T : Xform} (hT : T.Regular) {H W : Nat} {u v : ℚ} (h : InHull H W u v) {a b : Int}
    (hc : T.InClosedCell a b (T.point u v)) : 0 ≤ a ∧ a < H ∧ 0 ≤ b ∧ b < W := by
  obtain ⟨u', v', b1, b2, b3, b4, e⟩ := hc
  have q1 := positions_at hT (u + 1 / 2) (v + 1 / 2)
  have q2 := positions_at hT u' v'
  rw [← e] at q2
  unfold Xform.point at q2
  rw [q1] at q2
  simp only [Option.some.injEq, Prod.mk.injEq] at q2
  obtain ⟨h1, h2, h3, h4⟩ := h
  have r1 : (-1 : ℚ) < a := by linarith [q2.1]
  have r2 : (a : ℚ) < H := by linarith [q2.1]
  have r3 : (-1 : ℚ) < b := by linarith [q2.2]
  have r4 : (b : ℚ) < W := by linarith [q2.2]
  have s1 : (-1 : Int) < a := by exact_mod_cast r1
  have s2 : a < (H : Int) := by exact_mod_cast r2
  have s3 : (-1 : Int) < b := by exact_mod_cast r3
  have s4 : b < (W : Int) := by exact_mod_cast r4
  omega

theorem extent_box {T : Xform} (hT : T.Aligned) {H W : Nat} (hH : 0 < H) (hW : 0 < W) {xmin xmax ymin ymax : ℚ}
    (hb : Box T H W xmin xmax ymin ymax) : extent T H W true = (xmin, xmax, ymin, ymax) := by
  obtain ⟨c1, c2⟩ := C19_center_extent_partial T hT H W hH hW
  obtain ⟨e1, e2⟩ := tightRange_unique c1 hb.x
  obtain ⟨e3, e4⟩ := tightRange_unique c2 hb.y
  rw [← e1, ← e2, ← e3, ← e4]

/-- The number of steps of length `d` that fit into a range, plus one. -/
theorem steps_spec {lo hi d : ℚ} (hd : 0 < d) (h : lo ≤ hi) :
    0 < (⌊(hi - lo) / d⌋ + 1).toNat ∧ (((⌊(hi - lo) / d⌋ + 1).toNat : ℚ) - 1) * d ≤ hi - lo ∧
      hi - lo < ((⌊(hi - lo) / d⌋ + 1).toNat : ℚ) * d := by
  have h0 : 0 ≤ ⌊(hi - lo) / d⌋ := Int.floor_nonneg.2 (div_nonneg (by linarith) hd.le)
  have e : (((⌊(hi - lo) / d⌋ + 1).toNat : Nat) : ℚ) = (⌊(hi - lo) / d⌋ : ℚ) + 1 := by
    have : (((⌊(hi - lo) / d⌋ + 1).toNat : Nat) : Int) = ⌊(hi - lo) / d⌋ + 1 := Int.toNat_of_nonneg (by omega)
    exact_mod_cast this
  refine ⟨by omega, ?_, ?_⟩
  · rw [e, add_sub_cancel_right]
    exact (le_div_iff₀ hd).1 (Int.floor_le _)
  · rw [e]
    exact (div_lt_iff₀ hd).1 (Int.lt_floor_add_one _)

/-- Where the centres of the resampled grid lie. -/
theorem resampled_centre {T : Xform} (hT : T.Plain) {H W : Nat} (hH : 0 < H) (hW : 0 < W)
    {xmin xmax ymin ymax : ℚ} (hb : Box T H W xmin xmax ymin ymax) (dx dy : ℚ) (i j : Int) :
    centerCoord (resampledXform T H W dx dy) i j = (xmin + j * dx, ymin + i * dy) := by
  simp only [resampledXform, extent_box hT.aligned hH hW hb, centerCoord, hT.sx, hT.sy, Prod.mk.injEq]
  constructor <;> ring

theorem resampled_size {T : Xform} (hT : T.Plain) {H W : Nat} (hH : 0 < H) (hW : 0 < W)
    {xmin xmax ymin ymax : ℚ} (hb : Box T H W xmin xmax ymin ymax) (dx dy : ℚ) :
    resampledSize T H W dx dy = ((⌊(ymax - ymin) / dy⌋ + 1).toNat, (⌊(xmax - xmin) / dx⌋ + 1).toNat) := by
  simp only [resampledSize, extent_box hT.aligned hH hW hb]

/-- Every centre of the resampled grid lies between the extreme centres of the old one. -/
theorem resampled_within {lo hi d : ℚ} (hd : 0 < d) {n : Nat} (hn : ((n : ℚ) - 1) * d ≤ hi - lo) {j : Nat} (hj : j < n) :
    lo ≤ lo + j * d ∧ lo + j * d ≤ hi := by
  have h1 : (j : ℚ) + 1 ≤ n := by exact_mod_cast hj
  constructor
  · have : 0 ≤ (j : ℚ) * d := by positivity
    linarith
  · nlinarith

theorem centre_inCell {T : Xform} (i j : Int) : T.InCell i j (centerCoord T i j) := by
  refine ⟨i + 1 / 2, j + 1 / 2, by linarith, by linarith, by linarith, by linarith, ?_⟩
  simp only [centerCoord, Xform.at]

/-- The first centre of the resampled grid is the centre of an old cell. -/
theorem first_centre {T : Xform} (hT : T.Plain) {H W : Nat} {xmin xmax ymin ymax : ℚ}
    (hb : Box T H W xmin xmax ymin ymax) : ∃ i j : Nat, i < H ∧ j < W ∧ centerCoord T i j = (xmin, ymin) := by
  obtain ⟨-, ⟨i, j, hi, hj, a1⟩, -⟩ := hb.x
  obtain ⟨-, ⟨i', j', hi', hj', b1⟩, -⟩ := hb.y
  refine ⟨i', j, hi', hj, ?_⟩
  rw [← a1, ← b1]
  simp only [centerCoord, hT.sx, hT.sy, mul_zero, add_zero]

/-! ### C110 -/

/-- C110, nearest method, one band, no skew.  `xmin … ymax` are the smallest and largest coordinates of the
old cell centres.  The new grid has the requested spacing, its first centre is `(xmin, ymin)`, its centres
reach as far as `(xmax, ymax)` allows and no further, and every new cell holds the value of an old cell
that contains its centre.  Missing for the full C110: several bands, skew and a result of a single column
with several rows, see the violations below. -/
theorem C110_nearest_partial {g : RGrid α} {H W : Nat} {P : Int → Int → α} (hg : g.Holds H W [P])
    (hH : 0 < H) (hW : 0 < W) (hT : g.t.Plain) {xmin xmax ymin ymax : ℚ} (hb : Box g.t H W xmin xmax ymin ymax)
    (zero garb : α) (kern : Arr α → ℚ → ℚ → Except Err α) (dx dy : ℚ) (hdx : 0 < dx) (hdy : 0 < dy)
    (hsz : dx ≤ xmax - xmin ∨ ymax - ymin < dy) :
    ∃ g' ny nx P', g.resample zero garb kern dx dy .nearest = some (.ok g') ∧ g'.Holds ny nx [P'] ∧
      g'.nodata = g.nodata ∧ g'.t.dx = dx ∧ g'.t.dy = dy ∧ g'.t.sx = 0 ∧ g'.t.sy = 0 ∧ 0 < ny ∧ 0 < nx ∧
      centerCoord g'.t 0 0 = (xmin, ymin) ∧
      xmin + ((nx : ℚ) - 1) * dx ≤ xmax ∧ xmax < xmin + nx * dx ∧
      ymin + ((ny : ℚ) - 1) * dy ≤ ymax ∧ ymax < ymin + ny * dy ∧
      ∀ i j : Nat, i < ny → j < nx → ∃ a b : Nat, a < H ∧ b < W ∧
        g.t.InClosedCell a b (centerCoord g'.t i j) ∧ P' i j = P a b := by
  obtain ⟨nx0, nx1, nx2⟩ := steps_spec hdx (tightRange_le hb.x)
  obtain ⟨ny0, ny1, ny2⟩ := steps_spec hdy (tightRange_le hb.y)
  have hcols : 1 < (⌊(xmax - xmin) / dx⌋ + 1).toNat ∨ (⌊(ymax - ymin) / dy⌋ + 1).toNat = 1 := by
    rcases hsz with h | h
    · left
      have : (1 : Int) ≤ ⌊(xmax - xmin) / dx⌋ := Int.le_floor.2 (by rw [le_div_iff₀ hdx]; simpa using h)
      omega
    · right
      have : ⌊(ymax - ymin) / dy⌋ = 0 := by
        rw [Int.floor_eq_zero_iff]
        exact ⟨div_nonneg (by linarith [tightRange_le hb.y]) hdy.le, (div_lt_one hdy).2 h⟩
      rw [this]; rfl
  have hc := fun i j => resampled_centre hT hH hW hb dx dy i j
  have hin : SomeInside g.t H W (centres (resampledXform g.t H W dx dy) (⌊(ymax - ymin) / dy⌋ + 1).toNat
      (⌊(xmax - xmin) / dx⌋ + 1).toNat) := by
    obtain ⟨i, j, hi, hj, e⟩ := first_centre hT hb
    refine ⟨_, mem_centres _ ny0 nx0, i, j, hi, hj, ?_⟩
    rw [hc]
    simp only [Nat.cast_zero, Int.cast_zero, zero_mul, add_zero]
    rw [← e]
    exact centre_inCell _ _
  obtain ⟨g', P', e, e1, e2, e3, e4⟩ := resampleOnto_nearest hg hT.regular zero garb kern
    (resampledXform g.t H W dx dy) _ _ ny0 nx0 hcols hin
  refine ⟨g', _, _, P', ?_, e3, e2, ?_, ?_, ?_, ?_, ny0, nx0, ?_, by linarith, by linarith, by linarith,
    by linarith, ?_⟩
  · unfold RGrid.resample
    rw [if_neg (by push Not; exact ⟨hdx, hdy⟩)]
    simp only [hg.size, resampled_size hT hH hW hb]
    exact e
  · rw [e1]; rfl
  · rw [e1]; rfl
  · rw [e1]; exact hT.sx
  · rw [e1]; exact hT.sy
  · rw [e1, hc]; simp
  · intro i j hi hj
    obtain ⟨a, b, hcell, hv⟩ := e4 i j hi hj
    rw [e1]
    have hp := hcell
    obtain ⟨x1, x2⟩ := resampled_within hdx nx1 hj
    obtain ⟨y1, y2⟩ := resampled_within hdy ny1 hi
    obtain ⟨u, v, hu, huv⟩ := box_position hT hb x1 x2 y1 y2
    rw [hc] at hp
    simp only [Int.cast_natCast] at hp
    rw [huv] at hp
    obtain ⟨a0, a1, b0, b1⟩ := hull_cell hT.regular hu hp
    refine ⟨a.toNat, b.toNat, by omega, by omega, ?_, ?_⟩
    · rw [Int.toNat_of_nonneg a0, Int.toNat_of_nonneg b0]; exact hcell
    · rw [hv, cellValue, if_pos ⟨a0, a1, b0, b1⟩, Int.toNat_of_nonneg a0, Int.toNat_of_nonneg b0]

/-- C110: a spacing that is not positive is refused, whatever the grid and the method. -/
theorem C110_spacing_refused (g : RGrid α) (zero garb : α) (kern : Arr α → ℚ → ℚ → Except Err α) (dx dy : ℚ)
    (m : Method) (h : dx ≤ 0 ∨ dy ≤ 0) : g.resample zero garb kern dx dy m = some (.error .valueError) := by
  unfold RGrid.resample
  rw [if_pos h]

/-- C110: a method other than nearest or linear is refused. -/
theorem C110_method_refused {g : RGrid α} {H W : Nat} {Ps : List (Int → Int → α)} (hg : g.Holds H W Ps)
    (hH : 0 < H) (hW : 0 < W) (zero garb : α) (kern : Arr α → ℚ → ℚ → Except Err α) (dx dy : ℚ)
    (hdx : 0 < dx) (hdy : 0 < dy) : g.resample zero garb kern dx dy .other = some (.error .notImplemented) := by
  unfold RGrid.resample
  rw [if_neg (by push Not; exact ⟨hdx, hdy⟩)]
  simp only [hg.size]
  have h1 : 0 < (resampledSize g.t H W dx dy).1 := by
    unfold resampledSize extent
    exact (steps_spec hdy (min_le_max)).1
  have h2 : 0 < (resampledSize g.t H W dx dy).2 := by
    unfold resampledSize extent
    exact (steps_spec hdx (min_le_max)).1
  unfold RGrid.resampleOnto
  rw [coordsAll_eq _ h1 h2]
  rfl

/-- C110 is violated when the new grid has one column and several rows: it comes back with one row and
several columns. -/
theorem C110_violated_single_column {g : RGrid α} {H W : Nat} {P : Int → Int → α} (hg : g.Holds H W [P])
    (hH : 0 < H) (hW : 0 < W) (hT : g.t.Plain) {xmin xmax ymin ymax : ℚ} (hb : Box g.t H W xmin xmax ymin ymax)
    (zero garb : α) (kern : Arr α → ℚ → ℚ → Except Err α) (dx dy : ℚ) (hdx : xmax - xmin < dx)
    (hdy : 0 < dy) (hy : dy ≤ ymax - ymin) :
    ∃ g' n P', g.resample zero garb kern dx dy .nearest = some (.ok g') ∧ 2 ≤ n ∧ g'.Holds 1 n [P'] := by
  have hdx0 : 0 < dx := by linarith [tightRange_le hb.x]
  obtain ⟨nx0, nx1, nx2⟩ := steps_spec hdx0 (tightRange_le hb.x)
  obtain ⟨ny0, ny1, ny2⟩ := steps_spec hdy (tightRange_le hb.y)
  have hnx : (⌊(xmax - xmin) / dx⌋ + 1).toNat = 1 := by
    have : ⌊(xmax - xmin) / dx⌋ = 0 := by
      rw [Int.floor_eq_zero_iff]
      exact ⟨div_nonneg (by linarith [tightRange_le hb.x]) hdx0.le, (div_lt_one hdx0).2 hdx⟩
    rw [this]; rfl
  have hny : 2 ≤ (⌊(ymax - ymin) / dy⌋ + 1).toNat := by
    have : (1 : Int) ≤ ⌊(ymax - ymin) / dy⌋ := Int.le_floor.2 (by rw [le_div_iff₀ hdy]; simpa using hy)
    omega
  have hc := fun i j => resampled_centre hT hH hW hb dx dy i j
  have hin : SomeInside g.t H W (centres (resampledXform g.t H W dx dy) (⌊(ymax - ymin) / dy⌋ + 1).toNat 1) := by
    obtain ⟨i, j, hi, hj, e⟩ := first_centre hT hb
    refine ⟨_, mem_centres _ ny0 Nat.one_pos, i, j, hi, hj, ?_⟩
    rw [hc]
    simp only [Nat.cast_zero, Int.cast_zero, zero_mul, add_zero]
    rw [← e]
    exact centre_inCell _ _
  obtain ⟨out, o1, o2, o3⟩ := C17_vector_partial hg hT.regular garb _ hin (Or.inl rfl)
  match out, o2 with
  | [vs], _ =>
    have hl : vs.length = (⌊(ymax - ymin) / dy⌋ + 1).toNat * 1 := by
      obtain ⟨ws, w1, w2, -⟩ := o3 0 0 P _ rfl (by simpa using centres_get _ ny0 Nat.one_pos)
      simp only [List.getElem?_cons_zero, Option.some.injEq] at w1
      rw [w1, w2, centres_length]
    obtain ⟨g', P', e, e1, e2, e3, -⟩ := fromValues_one zero garb (resampledXform g.t H W dx dy) g.nodata _ 1 vs hl
    refine ⟨g', _, P', ?_, hny, by rw [mul_one] at e3; exact e3⟩
    unfold RGrid.resample
    rw [if_neg (by push Not; exact ⟨hdx0, hdy⟩)]
    simp only [hg.size, resampled_size hT hH hW hb, hnx]
    unfold RGrid.resampleOnto
    rw [coordsAll_eq _ ny0 Nat.one_pos, decide_eq_false (by omega)]
    simp only [RGrid.sampleBy, o1, Option.map_some, Option.some.injEq]
    exact e

/-- C110 is violated by grids of several bands: the second value in the first band of the result comes
from the second band, at the first centre. -/
theorem C110_violated_bands {g : RGrid α} {H W : Nat} {P0 P1 : Int → Int → α} {Ps : List (Int → Int → α)}
    (hg : g.Holds H W (P0 :: P1 :: Ps))
    (hH : 0 < H) (hW : 0 < W) (hT : g.t.Plain) {xmin xmax ymin ymax : ℚ} (hb : Box g.t H W xmin xmax ymin ymax)
    (zero garb : α) (kern : Arr α → ℚ → ℚ → Except Err α) (dx dy : ℚ) (hdx : 0 < dx) (hdy : 0 < dy)
    (hx : dx ≤ xmax - xmin) (hy : dy ≤ ymax - ymin) :
    ∃ g' ny nx P' Ps' a b, g.resample zero garb kern dx dy .nearest = some (.ok g') ∧ g'.Holds ny nx (P' :: Ps') ∧
      g.t.InClosedCell a b (centerCoord g'.t 0 0) ∧ P' 0 1 = cellValue H W g.nodata P1 a b := by
  obtain ⟨nx0, nx1, nx2⟩ := steps_spec hdx (tightRange_le hb.x)
  obtain ⟨ny0, ny1, ny2⟩ := steps_spec hdy (tightRange_le hb.y)
  have hnx : 2 ≤ (⌊(xmax - xmin) / dx⌋ + 1).toNat := by
    have : (1 : Int) ≤ ⌊(xmax - xmin) / dx⌋ := Int.le_floor.2 (by rw [le_div_iff₀ hdx]; simpa using hx)
    omega
  have hny : 2 ≤ (⌊(ymax - ymin) / dy⌋ + 1).toNat := by
    have : (1 : Int) ≤ ⌊(ymax - ymin) / dy⌋ := Int.le_floor.2 (by rw [le_div_iff₀ hdy]; simpa using hy)
    omega
  generalize hNX : (⌊(xmax - xmin) / dx⌋ + 1).toNat = NX at *
  generalize hNY : (⌊(ymax - ymin) / dy⌋ + 1).toNat = NY at *
  have hc := fun i j => resampled_centre hT hH hW hb dx dy i j
  have hin : SomeInside g.t H W (centres (resampledXform g.t H W dx dy) NY NX) := by
    obtain ⟨i, j, hi, hj, e⟩ := first_centre hT hb
    refine ⟨_, mem_centres _ ny0 nx0, i, j, hi, hj, ?_⟩
    rw [hc]
    simp only [Nat.cast_zero, Int.cast_zero, zero_mul, add_zero]
    rw [← e]
    exact centre_inCell _ _
  obtain ⟨out, ix, o1, o2, o3, o4, o5⟩ := nearest_general hg hT.regular garb _ hin
  have hlen : 4 ≤ NY * NX := by nlinarith
  rw [centres_length] at o3 o5
  obtain ⟨q, hq⟩ : ∃ q, ix[0]? = some q := ⟨ix[0]'(by omega), List.getElem?_eq_getElem _⟩
  have hl : ∀ (k : Nat) vs, out[k]? = some vs → vs.length = NY * NX := by
    intro k vs hk
    have hk' : k < (P0 :: P1 :: Ps).length := by rw [← o2]; exact (List.getElem?_eq_some_iff.1 hk).1
    have hdm := Nat.div_add_mod (k * (NY * NX)) (P0 :: P1 :: Ps).length
    have hmod := Nat.mod_lt (k * (NY * NX)) (y := (P0 :: P1 :: Ps).length) (by simp)
    have hdiv : k * (NY * NX) / (P0 :: P1 :: Ps).length < ix.length := by
      rw [o3, Nat.div_lt_iff_lt_mul (by simp), mul_comm (NY * NX)]
      exact Nat.mul_lt_mul_of_pos_right hk' (by omega)
    obtain ⟨ws, w1, w2, -⟩ := o5 k 0 (k * (NY * NX) / (P0 :: P1 :: Ps).length)
      (k * (NY * NX) % (P0 :: P1 :: Ps).length) hk' (by omega)
      (by rw [mul_comm _ ((P0 :: P1 :: Ps).length)]; omega) hmod _ _ (List.getElem?_eq_getElem hdiv)
      (List.getElem?_eq_getElem hmod)
    rw [hk] at w1
    cases w1
    exact w2
  obtain ⟨g', Ps', e, e1, e2, e3, e4, e5⟩ := fromValues_two zero garb (resampledXform g.t H W dx dy) g.nodata NY NX out
    (by rw [o2]; simp) hl
  obtain ⟨vs, v1, v2, v3⟩ := o5 0 1 0 1 (by simp) (by omega) (by simp) (by simp) q P1 hq rfl
  match Ps', (show Ps'.length = Ps.length + 2 by rw [e4, o2]; simp) with
  | P' :: Ps', _ =>
    refine ⟨g', NY, NX, P', Ps', q.1, q.2, ?_, e3, ?_, ?_⟩
    · unfold RGrid.resample
      rw [if_neg (by push Not; exact ⟨hdx, hdy⟩)]
      simp only [hg.size, resampled_size hT hH hW hb, hNX, hNY]
      unfold RGrid.resampleOnto
      rw [coordsAll_eq _ ny0 nx0, decide_eq_true (by omega)]
      simp only [RGrid.sampleBy, o1, Option.map_some, Option.some.injEq]
      exact e
    · rw [e1]
      exact o4 0 _ q (by simpa using centres_get (resampledXform g.t H W dx dy) ny0 nx0) hq
    · have := e5 0 P' vs rfl v1 0 1 ny0 (by omega)
      simp only [zero_mul, zero_add] at this
      rw [v3] at this
      simpa using (Option.some.inj this).symm

/-- C110 is violated by skewed grids: the rows of the new grid move sideways by the skew per new row, and
when the accumulated skew exceeds a column width the last centre of the last row lies beyond all old
centres. -/
theorem C110_violated_skew (T : Xform) (H W : Nat) (hH : 0 < H) (hW : 0 < W) (hT : T.Aligned)
    {xmin xmax ymin ymax : ℚ} (hb : Box T H W xmin xmax ymin ymax) (dx dy : ℚ) (hdx : 0 < dx) (hdy : 0 < dy)
    (hs : dx ≤ (((resampledSize T H W dx dy).1 : ℚ) - 1) * T.sx) :
    xmax < (centerCoord (resampledXform T H W dx dy) (((resampledSize T H W dx dy).1 : Int) - 1)
      (((resampledSize T H W dx dy).2 : Int) - 1)).1 := by
  obtain ⟨nx0, nx1, nx2⟩ := steps_spec hdx (tightRange_le hb.x)
  have e2 : (resampledSize T H W dx dy).2 = (⌊(xmax - xmin) / dx⌋ + 1).toNat := by
    simp only [resampledSize, extent_box hT hH hW hb]
  rw [e2]
  generalize (⌊(xmax - xmin) / dx⌋ + 1).toNat = NX at *
  generalize (resampledSize T H W dx dy).1 = NY at *
  simp only [resampledXform, extent_box hT hH hW hb, centerCoord]
  push_cast
  linarith

/-! ### C111 -/

/-- Position counted in the direction of growing coordinates. -/
def along (d : ℚ) (N j : Nat) : Nat := if 0 < d then j else N - 1 - j

theorem along_lt {d : ℚ} {N j : Nat} (h : j < N) : along d N j < N := by
  unfold along; split_ifs <;> omega

theorem along_along {d : ℚ} {N j : Nat} (h : j < N) : along d N (along d N j) = j := by
  unfold along; split_ifs <;> omega

/-- The `j`-th centre in the direction of growing coordinates. -/
theorem along_coord {x0 d : ℚ} (hd : d ≠ 0) {N j : Nat} (h : j < N) :
    x0 + ((along d N j : ℚ) + 1 / 2) * d = x0 + ((along d N 0 : ℚ) + 1 / 2) * d + j * |d| := by
  unfold along
  rcases lt_or_gt_of_ne hd with k | k
  · rw [if_neg (by linarith), if_neg (by linarith), abs_of_neg k]
    have e1 : ((N - 1 - j : Nat) : ℚ) = (N : ℚ) - 1 - j := by
      rw [Nat.cast_sub (by omega), Nat.cast_sub (by omega)]; simp
    have e2 : ((N - 1 - 0 : Nat) : ℚ) = (N : ℚ) - 1 := by
      rw [Nat.sub_zero, Nat.cast_sub (by omega)]; simp
    rw [e1, e2]; ring
  · rw [if_pos k, if_pos k, abs_of_pos k]; push_cast; ring

theorem plain_centre {T : Xform} (hT : T.Plain) (i j : Nat) :
    centerCoord T i j = (T.x0 + ((j : ℚ) + 1 / 2) * T.dx, T.y0 + ((i : ℚ) + 1 / 2) * T.dy) := by
  simp only [centerCoord, hT.sx, hT.sy, mul_zero, add_zero, Int.cast_natCast]

/-- The extreme centres of a grid without skew. -/
theorem plain_box {T : Xform} (hT : T.Plain) {H W : Nat} (hH : 0 < H) (hW : 0 < W) :
    Box T H W (T.x0 + ((along T.dx W 0 : ℚ) + 1 / 2) * T.dx)
      (T.x0 + ((along T.dx W 0 : ℚ) + 1 / 2) * T.dx + ((W : ℚ) - 1) * |T.dx|)
      (T.y0 + ((along T.dy H 0 : ℚ) + 1 / 2) * T.dy)
      (T.y0 + ((along T.dy H 0 : ℚ) + 1 / 2) * T.dy + ((H : ℚ) - 1) * |T.dy|) := by
  have cast_le : ∀ {a n : Nat}, a < n → (a : ℚ) ≤ (n : ℚ) - 1 := by
    intro a n h
    have : ((a + 1 : Nat) : ℚ) ≤ (n : ℚ) := by exact_mod_cast h
    push_cast at this
    linarith
  have cast_eq : ∀ {n : Nat}, 0 < n → ((n - 1 : Nat) : ℚ) = (n : ℚ) - 1 := by
    intro n h
    rw [Nat.cast_sub h]; simp
  have key : ∀ {x0 d : ℚ}, d ≠ 0 → ∀ {N j : Nat}, j < N →
      x0 + ((along d N 0 : ℚ) + 1 / 2) * d ≤ x0 + ((j : ℚ) + 1 / 2) * d ∧
      x0 + ((j : ℚ) + 1 / 2) * d ≤ x0 + ((along d N 0 : ℚ) + 1 / 2) * d + ((N : ℚ) - 1) * |d| := by
    intro x0 d hd N j hj
    have h1 := along_coord (x0 := x0) hd (along_lt (d := d) hj)
    rw [along_along hj] at h1
    rw [h1]
    have h2 : 0 < |d| := abs_pos.2 hd
    have h3 := cast_le (along_lt (d := d) hj)
    exact ⟨by have : 0 ≤ ((along d N j : Nat) : ℚ) * |d| := by positivity
              linarith, by nlinarith⟩
  constructor
  · refine ⟨fun i j _ hj => ?_, ⟨0, along T.dx W 0, hH, along_lt hW, ?_⟩,
      ⟨0, along T.dx W (W - 1), hH, along_lt (by omega), ?_⟩⟩ <;> simp only [plain_centre hT]
    · exact key hT.dx hj
    · rw [along_coord hT.dx (by omega), cast_eq hW]
  · refine ⟨fun i j hi _ => ?_, ⟨along T.dy H 0, 0, along_lt hH, hW, ?_⟩,
      ⟨along T.dy H (H - 1), 0, along_lt (by omega), hW, ?_⟩⟩ <;> simp only [plain_centre hT]
    · exact key hT.dy hi
    · rw [along_coord hT.dy (by omega), cast_eq hH]

/-- C111.  Resampling a single-band grid without skew at its own spacing, nearest method: the new grid has
the same size and for every old cell there is a new cell with the same centre and the same value.  When
both spacings are positive the new grid is the old one, cell for cell.  Missing for the full C111: several
bands, skew, and a single column of several rows (see the violations of C110). -/
theorem C111_own_spacing_partial {g : RGrid α} {H W : Nat} {P : Int → Int → α} (hg : g.Holds H W [P])
    (hH : 0 < H) (hW : 0 < W) (hT : g.t.Plain) (zero garb : α) (kern : Arr α → ℚ → ℚ → Except Err α)
    (hsz : 1 < W ∨ H = 1) :
    ∃ g' P', g.resample zero garb kern |g.t.dx| |g.t.dy| .nearest = some (.ok g') ∧ g'.Holds H W [P'] ∧
      g'.nodata = g.nodata ∧ g'.t.dx = |g.t.dx| ∧ g'.t.dy = |g.t.dy| ∧ g'.t.sx = 0 ∧ g'.t.sy = 0 ∧
      (∀ i j : Nat, i < H → j < W → ∃ i' j' : Nat, i' < H ∧ j' < W ∧
        centerCoord g'.t i' j' = centerCoord g.t i j ∧ P' i' j' = P i j) ∧
      (0 < g.t.dx → 0 < g.t.dy → g'.t = g.t ∧ ∀ i j : Nat, i < H → j < W → P' i j = P i j) := by
  have hb := plain_box hT hH hW
  have px : 0 < |g.t.dx| := abs_pos.2 hT.dx
  have py : 0 < |g.t.dy| := abs_pos.2 hT.dy
  obtain ⟨g', ny, nx, P', e, hh, e1, e2, e3, e4, e5, n1, n2, c0, f1, f2, f3, f4, hv⟩ :=
    C110_nearest_partial hg hH hW hT hb zero garb kern _ _ px py (by
      rcases hsz with h | h
      · left
        have : (2 : ℚ) ≤ W := by exact_mod_cast h
        nlinarith
      · right
        subst h
        simp [py])
  have hnx : nx = W := by
    have a1 : ((nx : ℚ) - 1) ≤ (W : ℚ) - 1 := le_of_mul_le_mul_right (by linarith) px
    have a2 : (W : ℚ) - 1 < nx := lt_of_mul_lt_mul_right (by linarith) px.le
    have b1 : (nx : ℚ) ≤ W := by linarith
    have b2 : (W : ℚ) < nx + 1 := by linarith
    have d1 : nx ≤ W := by exact_mod_cast b1
    have d2 : W < nx + 1 := by exact_mod_cast b2
    omega
  have hny : ny = H := by
    have a1 : ((ny : ℚ) - 1) ≤ (H : ℚ) - 1 := le_of_mul_le_mul_right (by linarith) py
    have a2 : (H : ℚ) - 1 < ny := lt_of_mul_lt_mul_right (by linarith) py.le
    have b1 : (ny : ℚ) ≤ H := by linarith
    have b2 : (H : ℚ) < ny + 1 := by linarith
    have d1 : ny ≤ H := by exact_mod_cast b1
    have d2 : H < ny + 1 := by exact_mod_cast b2
    omega
  subst hnx hny
  have hT' : g'.t.Plain := ⟨by rw [e2]; exact px.ne', by rw [e3]; exact py.ne', e4, e5⟩
  have hcen : ∀ i j : Nat, i < ny → j < nx →
      centerCoord g'.t i j = centerCoord g.t (along g.t.dy ny i : Nat) (along g.t.dx nx j : Nat) := by
    intro i j hi hj
    rw [plain_centre hT', plain_centre hT, along_coord hT.dx hj, along_coord hT.dy hi]
    have c0' := c0
    have h00 : centerCoord g'.t 0 0 = centerCoord g'.t ((0 : Nat) : Int) ((0 : Nat) : Int) := rfl
    rw [h00, plain_centre hT'] at c0'
    simp only [Prod.mk.injEq] at c0' ⊢
    rw [e2] at c0' ⊢
    rw [e3] at c0' ⊢
    constructor
    · rw [← c0'.1]; push_cast; ring
    · rw [← c0'.2]; push_cast; ring
  have hval : ∀ i j : Nat, i < ny → j < nx → P' i j = P (along g.t.dy ny i : Nat) (along g.t.dx nx j : Nat) := by
    intro i j hi hj
    obtain ⟨a, b, ha, hb', hc, hv'⟩ := hv i j hi hj
    rw [hcen i j hi hj] at hc
    obtain ⟨q1, q2⟩ := closed_cell_unique hT.regular (centre_inCell _ _) hc
    rw [hv', q1, q2]
  refine ⟨g', P', e, hh, e1, e2, e3, e4, e5, ?_, ?_⟩
  · intro i j hi hj
    refine ⟨along g.t.dy ny i, along g.t.dx nx j, along_lt hi, along_lt hj, ?_, ?_⟩
    · rw [hcen _ _ (along_lt hi) (along_lt hj), along_along hi, along_along hj]
    · rw [hval _ _ (along_lt hi) (along_lt hj), along_along hi, along_along hj]
  · intro hx hy
    have hax : ∀ j, along g.t.dx nx j = j := fun j => if_pos hx
    have hay : ∀ i, along g.t.dy ny i = i := fun i => if_pos hy
    refine ⟨?_, fun i j hi hj => by rw [hval i j hi hj, hax, hay]⟩
    have h0 := hcen 0 0 n1 n2
    rw [hax, hay, plain_centre hT', plain_centre hT] at h0
    simp only [Prod.mk.injEq] at h0
    rw [abs_of_pos hx] at e2
    rw [abs_of_pos hy] at e3
    rw [e2] at h0
    rw [e3] at h0
    have s1 := hT.sx
    have s2 := hT.sy
    have k1 : g'.t.x0 = g.t.x0 := by linarith [h0.1]
    have k2 : g'.t.y0 = g.t.y0 := by linarith [h0.2]
    cases hgt : g.t
    cases hgt' : g'.t
    rw [hgt, hgt'] at k1 k2 e2 e3
    rw [hgt'] at e4 e5
    rw [hgt] at s1 s2
    simp only at k1 k2 e2 e3 e4 e5 s1 s2
    simp only [Xform.mk.injEq]
    exact ⟨k1, k2, e2, e3, by rw [e4, s1], by rw [e5, s2]⟩

/-! ### C112 -/

/-- The row and column position of a point, for a grid without skew. -/
def unpoint (T : Xform) (p : ℚ × ℚ) : ℚ × ℚ := ((p.2 - T.y0) / T.dy - 1 / 2, (p.1 - T.x0) / T.dx - 1 / 2)

theorem point_unpoint {T : Xform} (hT : T.Plain) (p : ℚ × ℚ) : T.point (unpoint T p).1 (unpoint T p).2 = p := by
  have h1 := div_mul_cancel₀ (p.1 - T.x0) hT.dx
  have h2 := div_mul_cancel₀ (p.2 - T.y0) hT.dy
  obtain ⟨x, y⟩ := p
  simp only [Xform.point, Xform.at, unpoint, hT.sx, hT.sy, mul_zero, add_zero, Prod.mk.injEq]
  exact ⟨by linear_combination h1, by linear_combination h2⟩

theorem point_inj {T : Xform} (hT : T.Regular) {u v u' v' : ℚ} (h : T.point u v = T.point u' v') : u = u' ∧ v = v' := by
  have q1 := positions_at hT (u + 1 / 2) (v + 1 / 2)
  have q2 := positions_at hT (u' + 1 / 2) (v' + 1 / 2)
  unfold Xform.point at h
  rw [h, q2] at q1
  simp only [Option.some.injEq, Prod.mk.injEq] at q1
  exact ⟨by linarith [q1.1], by linarith [q1.2]⟩

/-- C112.  Resampling a grid of floating-point numbers with any number of bands, without skew and of at
least two rows and columns, by the linear method: the new grid has the requested spacing and as many bands,
its first centre is `(xmin, ymin)`, it covers the range of the old centres, and every new cell holds, in each
band, the bilinear interpolation of the old values of that band at its centre.  Missing for the full C112: skew, and results of a single row or column,
where the code does not return such a grid. -/
theorem C112_linear_partial {g : RGrid ℚ} {H W : Nat} {Ps : List (Int → Int → ℚ)} (hg : g.Holds H W Ps)
    (hP : 0 < Ps.length) (hH : 2 ≤ H) (hW : 2 ≤ W) (hT : g.t.Plain) {xmin xmax ymin ymax : ℚ} (hb : Box g.t H W xmin xmax ymin ymax)
    (zero garb : ℚ) (dx dy : ℚ) (hdx : 0 < dx) (hdy : 0 < dy)
    (hx : dx ≤ xmax - xmin) (hy : dy ≤ ymax - ymin) :
    ∃ g' ny nx Ps', g.resample zero garb (kernelDouble g.nodata) dx dy .linear = some (.ok g') ∧ g'.Holds ny nx Ps' ∧
      Ps'.length = Ps.length ∧ g'.nodata = g.nodata ∧ g'.t.dx = dx ∧ g'.t.dy = dy ∧ g'.t.sx = 0 ∧ g'.t.sy = 0 ∧ 0 < ny ∧ 0 < nx ∧
      centerCoord g'.t 0 0 = (xmin, ymin) ∧
      xmin + ((nx : ℚ) - 1) * dx ≤ xmax ∧ xmax < xmin + nx * dx ∧
      ymin + ((ny : ℚ) - 1) * dy ≤ ymax ∧ ymax < ymin + ny * dy ∧
      ∀ i j : Nat, i < ny → j < nx → ∃ u v, InHull H W u v ∧
        centerCoord g'.t i j = g.t.point u v ∧
        ∀ (k : Nat) (P P' : Int → Int → ℚ), Ps[k]? = some P → Ps'[k]? = some P' → P' i j = interp P u v := by
  obtain ⟨nx0, nx1, nx2⟩ := steps_spec hdx (tightRange_le hb.x)
  obtain ⟨ny0, ny1, ny2⟩ := steps_spec hdy (tightRange_le hb.y)
  have hnx : 2 ≤ (⌊(xmax - xmin) / dx⌋ + 1).toNat := by
    have : (1 : Int) ≤ ⌊(xmax - xmin) / dx⌋ := Int.le_floor.2 (by rw [le_div_iff₀ hdx]; simpa using hx)
    omega
  have hny : 2 ≤ (⌊(ymax - ymin) / dy⌋ + 1).toNat := by
    have : (1 : Int) ≤ ⌊(ymax - ymin) / dy⌋ := Int.le_floor.2 (by rw [le_div_iff₀ hdy]; simpa using hy)
    omega
  have hsize := resampled_size hT (by omega) (by omega) hb dx dy
  generalize (⌊(xmax - xmin) / dx⌋ + 1).toNat = NX at *
  generalize (⌊(ymax - ymin) / dy⌋ + 1).toNat = NY at *
  have hc := fun i j => resampled_centre hT (by omega) (by omega) hb dx dy i j
  generalize hT' : resampledXform g.t H W dx dy = T' at *
  have hull : ∀ i j : Nat, i < NY → j < NX →
      InHull H W (unpoint g.t (centerCoord T' i j)).1 (unpoint g.t (centerCoord T' i j)).2 := by
    intro i j hi hj
    obtain ⟨x1, x2⟩ := resampled_within hdx nx1 hj
    obtain ⟨y1, y2⟩ := resampled_within hdy ny1 hi
    obtain ⟨u, v, hu, huv⟩ := box_position hT hb x1 x2 y1 y2
    have hp := point_unpoint hT (centerCoord T' i j)
    rw [hc] at hp ⊢
    simp only [Int.cast_natCast] at hp ⊢
    rw [huv] at hp ⊢
    obtain ⟨k1, k2⟩ := point_inj hT.regular hp
    rw [k1, k2]
    exact hu
  have hpts : (centres T' NY NX) = ((centres T' NY NX).map (unpoint g.t)).map fun p => g.t.point p.1 p.2 := by
    rw [List.map_map]
    conv_lhs => rw [← List.map_id (centres T' NY NX)]
    apply List.map_congr_left
    intro p _
    exact (point_unpoint hT p).symm
  have hread : Readable H W ((centres T' NY NX).map (unpoint g.t)) := by
    right
    have m00 := mem_centres T' (show 0 < NY by omega) (show 0 < NX by omega)
    have m10 := mem_centres T' (show 1 < NY by omega) (show 0 < NX by omega)
    have m01 := mem_centres T' (show 0 < NY by omega) (show 1 < NX by omega)
    have h00 := hull 0 0 (by omega) (by omega)
    have h10 := hull 1 0 (by omega) (by omega)
    have h01 := hull 0 1 (by omega) (by omega)
    constructor
    · by_cases h : (unpoint g.t (centerCoord T' ((0 : Nat) : Int) ((0 : Nat) : Int))).1 = 0
      · refine ⟨_, List.mem_map_of_mem m10, lt_of_le_of_ne h10.1 ?_, h10.2.1⟩
        intro hz
        rw [hc] at h hz
        simp only [unpoint] at h hz
        have a := div_mul_cancel₀ (ymin + ((((0 : Nat) : Int)) : ℚ) * dy - g.t.y0) hT.dy
        have b := div_mul_cancel₀ (ymin + ((((1 : Nat) : Int)) : ℚ) * dy - g.t.y0) hT.dy
        have : (ymin + ((((0 : Nat) : Int)) : ℚ) * dy - g.t.y0) / g.t.dy =
          (ymin + ((((1 : Nat) : Int)) : ℚ) * dy - g.t.y0) / g.t.dy := by linarith
        rw [this] at a
        have c := a.symm.trans b
        push_cast at c
        linarith
      · exact ⟨_, List.mem_map_of_mem m00, lt_of_le_of_ne h00.1 (Ne.symm h), h00.2.1⟩
    · by_cases h : (unpoint g.t (centerCoord T' ((0 : Nat) : Int) ((0 : Nat) : Int))).2 = 0
      · refine ⟨_, List.mem_map_of_mem m01, lt_of_le_of_ne h01.2.2.1 ?_, h01.2.2.2⟩
        intro hz
        rw [hc] at h hz
        simp only [unpoint] at h hz
        have a := div_mul_cancel₀ (xmin + ((((0 : Nat) : Int)) : ℚ) * dx - g.t.x0) hT.dx
        have b := div_mul_cancel₀ (xmin + ((((1 : Nat) : Int)) : ℚ) * dx - g.t.x0) hT.dx
        have : (xmin + ((((0 : Nat) : Int)) : ℚ) * dx - g.t.x0) / g.t.dx =
          (xmin + ((((1 : Nat) : Int)) : ℚ) * dx - g.t.x0) / g.t.dx := by linarith
        rw [this] at a
        have c := a.symm.trans b
        push_cast at c
        linarith
      · exact ⟨_, List.mem_map_of_mem m00, lt_of_le_of_ne h00.2.2.1 (Ne.symm h), h00.2.2.2⟩
  obtain ⟨out, o1, o2, o3⟩ := C16_bilinear_partial hg hT.regular hH hW garb _ hread
  rw [← hpts] at o1
  have hl : ∀ (k : Nat) vs, out[k]? = some vs → vs.length = NY * NX := by
    intro k vs hk
    obtain ⟨P, hP'⟩ : ∃ P, Ps[k]? = some P := by
      have := (List.getElem?_eq_some_iff.1 hk).1
      exact ⟨Ps[k]'(by omega), List.getElem?_eq_getElem _⟩
    obtain ⟨ws, w1, w2, -⟩ := o3 k P hP'
    rw [hk] at w1
    cases w1
    rw [w2, List.length_map, centres_length]
  obtain ⟨g', Ps', e, e1, e2, e3, e4, e5⟩ := fromValues_two zero garb T' g.nodata NY NX out (by omega) hl
  refine ⟨g', NY, NX, Ps', ?_, e3, by rw [e4, o2], e2, ?_, ?_, ?_, ?_, ny0, nx0, ?_, by linarith, by linarith, by linarith,
    by linarith, ?_⟩
  · unfold RGrid.resample
    rw [if_neg (by push Not; exact ⟨hdx, hdy⟩)]
    simp only [hg.size, hsize, hT']
    unfold RGrid.resampleOnto
    rw [coordsAll_eq _ ny0 nx0, decide_eq_true (by omega)]
    simp only [RGrid.sampleBy, o1, Option.map_some, Option.some.injEq]
    exact e
  · rw [e1, ← hT']; rfl
  · rw [e1, ← hT']; rfl
  · rw [e1, ← hT']; exact hT.sx
  · rw [e1, ← hT']; exact hT.sy
  · rw [e1, hc]; simp
  · intro i j hi hj
    refine ⟨_, _, hull i j hi hj, by rw [e1]; exact (point_unpoint hT _).symm, ?_⟩
    intro k P P' hk hk'
    obtain ⟨ws, w1, -, w3⟩ := o3 k P hk
    have := w3 (i * NX + j) (unpoint g.t (centerCoord T' i j)) (by rw [List.getElem?_map, centres_get T' hi hj]; rfl)
    rw [if_pos (hull i j hi hj), e5 k P' ws hk' w1 i j hi hj] at this
    exact Option.some.inj this

end Karta.Grid
