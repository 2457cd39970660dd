import Verif.Grid.Coord
import Mathlib.Tactic.Linarith
import Mathlib.Tactic.FieldSimp
import Mathlib.Tactic.Ring
import Mathlib.Tactic.LinearCombination
import Mathlib.Tactic.Positivity

/-!
Properties C09 (positions invert coordinates), C10 (point lookup), C19 (extent) and C64 (cell
corners).
-/

namespace Karta.Grid
open Karta

/-! ### Specification -/

/-- The map from (row, column) space to the plane: `(u, v) = (i, j)` is the lower-left corner of
cell `(i, j)` and `(i + 1, j + 1)` its opposite corner (class docstring, grid.py 86-112). -/
def Xform.at (T : Xform) (u v : ℚ) : ℚ × ℚ := (T.x0 + v * T.dx + u * T.sx, T.y0 + u * T.dy + v * T.sy)

/-- A transform the lookup handles: invertible with non-zero row spacing. -/
def Xform.Regular (T : Xform) : Prop := T.dx * T.dy - T.sx * T.sy ≠ 0 ∧ T.dy ≠ 0

/-- The point lies strictly inside cell `(i, j)`. -/
def Xform.InCell (T : Xform) (i j : Int) (p : ℚ × ℚ) : Prop :=
  ∃ u v : ℚ, (i : ℚ) < u ∧ u < i + 1 ∧ (j : ℚ) < v ∧ v < j + 1 ∧ p = T.at u v

/-- The point lies in cell `(i, j)` or on its border. -/
def Xform.InClosedCell (T : Xform) (i j : Int) (p : ℚ × ℚ) : Prop :=
  ∃ u v : ℚ, (i : ℚ) ≤ u ∧ u ≤ i + 1 ∧ (j : ℚ) ≤ v ∧ v ≤ j + 1 ∧ p = T.at u v

/-- The point lies in the closed region covered by an `ny × nx` grid. -/
def Xform.InGrid (T : Xform) (ny nx : Nat) (p : ℚ × ℚ) : Prop :=
  ∃ u v : ℚ, 0 ≤ u ∧ u ≤ ny ∧ 0 ≤ v ∧ v ≤ nx ∧ p = T.at u v

/-! ### Rounding -/

theorem rint_near (q : ℚ) : |q - rint q| ≤ 1 / 2 := by
  have h0 := Int.floor_le q
  have h1 := Int.lt_floor_add_one q
  rw [abs_le]
  unfold rint
  split_ifs with a b c <;> push_cast <;> constructor <;> linarith

theorem rint_eq {q : ℚ} {n : Int} (h : |q - n| < 1 / 2) : rint q = n := by
  have h1 := rint_near q
  rw [abs_le] at h1
  rw [abs_lt] at h
  have a : (rint q : ℚ) < n + 1 := by linarith
  have b : (n : ℚ) < rint q + 1 := by linarith
  have a' : rint q < n + 1 := by exact_mod_cast a
  have b' : n < rint q + 1 := by exact_mod_cast b
  omega

theorem rint_mono {p q : ℚ} (h : p ≤ q) : rint p ≤ rint q := by
  have hf : ⌊p⌋ ≤ ⌊q⌋ := Int.floor_le_floor h
  rcases eq_or_lt_of_le hf with e | l
  · unfold rint
    rw [← e]
    split_ifs <;> first | omega | (exfalso; linarith)
  · have hp : rint p ≤ ⌊p⌋ + 1 := by unfold rint; split_ifs <;> omega
    have hq : ⌊q⌋ ≤ rint q := by unfold rint; split_ifs <;> omega
    omega

theorem rint_int (n : Int) : rint n = n := rint_eq (by simp)

theorem rint_add_int (q : ℚ) (n : Int) (hn : n % 2 = 0) : rint (q + n) = rint q + n := by
  have e : ⌊q + n⌋ = ⌊q⌋ + n := Int.floor_add_intCast q n
  unfold rint
  rw [e]
  push_cast
  have e2 : q + n - (⌊q⌋ + n) = q - ⌊q⌋ := by ring
  rw [e2]
  have e3 : (⌊q⌋ + n) % 2 = ⌊q⌋ % 2 := by omega
  rw [e3]
  split_ifs <;> ring

/-! ### C09 -/

theorem positions_at {T : Xform} (hT : T.Regular) (u v : ℚ) :
    positions T (T.at u v).1 (T.at u v).2 = some (u - 1 / 2, v - 1 / 2) := by
  obtain ⟨hd, hy⟩ := hT
  unfold positions
  rw [if_neg (by rintro (h | h); exacts [hd h, hy h])]
  simp only [Xform.at, Option.some.injEq]
  have hj : (T.dy * (T.x0 + v * T.dx + u * T.sx) - T.dy * T.x0 + T.sx * T.y0 -
      T.sx * (T.y0 + u * T.dy + v * T.sy)) / (T.dx * T.dy - T.sx * T.sy) = v := by
    rw [div_eq_iff hd]; ring
  rw [hj]
  have hi : (T.y0 + u * T.dy + v * T.sy - T.y0 - v * T.sy) / T.dy = u := by
    rw [div_eq_iff hy]; ring
  rw [hi]

theorem positions_some {T : Xform} {x y p q : ℚ} (h : positions T x y = some (p, q)) :
    T.Regular ∧ (x, y) = T.at (p + 1 / 2) (q + 1 / 2) := by
  unfold positions at h
  by_cases hc : T.dx * T.dy - T.sx * T.sy = 0 ∨ T.dy = 0
  · rw [if_pos hc] at h; cases h
  · rw [if_neg hc] at h
    push Not at hc
    obtain ⟨hd, hy⟩ := hc
    simp only [Option.some.injEq, Prod.mk.injEq] at h
    obtain ⟨hp, hq⟩ := h
    set J := (T.dy * x - T.dy * T.x0 + T.sx * T.y0 - T.sx * y) / (T.dx * T.dy - T.sx * T.sy) with hJ
    clear_value J
    rw [eq_div_iff hd] at hJ
    have hI : (y - T.y0 - J * T.sy) / T.dy = p + 1 / 2 := by linarith
    rw [div_eq_iff hy] at hI
    have hq' : q + 1 / 2 = J := by linarith
    refine ⟨⟨hd, hy⟩, ?_⟩
    rw [hq']
    simp only [Xform.at, Prod.mk.injEq]
    constructor
    · apply mul_left_cancel₀ hy
      linear_combination (-1 : ℚ) * hJ + T.sx * hI
    · linarith

/-- C09: the centre coordinates of cell `(i, j)` are at fractional index exactly `(i, j)`. -/
theorem C09_center_round_trip (T : Xform) (hT : T.Regular) (i j : Int) :
    positions T (centerCoord T i j).1 (centerCoord T i j).2 = some ((i : ℚ), (j : ℚ)) := by
  have h := positions_at hT ((i : ℚ) + 1 / 2) ((j : ℚ) + 1 / 2)
  have e : T.at ((i : ℚ) + 1 / 2) ((j : ℚ) + 1 / 2) = centerCoord T i j := rfl
  rw [e] at h
  rw [h]
  simp

/-- C09: the fractional indices of any point lead back to the point. -/
theorem C09_position_round_trip (T : Xform) (hT : T.Regular) (x y : ℚ) :
    ∃ p q, positions T x y = some (p, q) ∧ (x, y) = T.at (p + 1 / 2) (q + 1 / 2) := by
  cases h : positions T x y with
  | none =>
    unfold positions at h
    rw [if_neg (by rintro (h | h); exacts [hT.1 h, hT.2 h])] at h
    cases h
  | some r => exact ⟨r.1, r.2, rfl, (positions_some h).2⟩

/-- C09: the coordinate generator and `center_coords` give the same coordinates. -/
theorem C09_coordinate_generator_agrees (T : Xform) (i j : Int) :
    coordGen T i j = centerCoord T i j ∧ centerLlref T = centerCoord T 0 0 := by
  constructor <;> simp only [coordGen, centerCoord, centerLlref, Prod.mk.injEq] <;>
    constructor <;> push_cast <;> ring

/-- C09, why the row spacing matters: the transform below is a legitimate quarter-turn grid, but
no point has defined fractional indices. -/
theorem C09_quarter_turn_undefined (x y : ℚ) :
    (⟨0, 0, 0, 0, 1, 1⟩ : Xform).dx * 0 - 1 * 1 ≠ 0 ∧ positions ⟨0, 0, 0, 0, 1, 1⟩ x y = none := by
  constructor
  · norm_num
  · simp [positions]

example : (⟨10, 20, 2, -3, 1, 1 / 2⟩ : Xform).Regular ∧
    positions ⟨10, 20, 2, -3, 1, 1 / 2⟩ (centerCoord ⟨10, 20, 2, -3, 1, 1 / 2⟩ 4 7).1
      (centerCoord ⟨10, 20, 2, -3, 1, 1 / 2⟩ 4 7).2 = some (4, 7) := by
  constructor
  · constructor <;> norm_num
  · decide +kernel

/-! ### C10 -/

theorem indicesRaw_at {T : Xform} (hT : T.Regular) (u v : ℚ) :
    indicesRaw T (T.at u v).1 (T.at u v).2 = some (rint (u - 1 / 2), rint (v - 1 / 2)) := by
  simp [indicesRaw, positions_at hT]

/-- C10: a point strictly inside cell `(i, j)` is assigned to that cell: the lookup returns `(i, j)`
when the cell belongs to the grid and raises `IndexError` when it does not. -/
theorem C10_point_in_cell (T : Xform) (hT : T.Regular) (ny nx : Nat) (i j : Int) (p : ℚ × ℚ)
    (hp : T.InCell i j p) :
    indices T ny nx p.1 p.2 =
      some (if 0 ≤ i ∧ i < ny ∧ 0 ≤ j ∧ j < nx then .ok (i, j) else .error .indexError) := by
  obtain ⟨u, v, h1, h2, h3, h4, rfl⟩ := hp
  have ei : rint (u - 1 / 2) = i := rint_eq (by rw [abs_lt]; constructor <;> linarith)
  have ej : rint (v - 1 / 2) = j := rint_eq (by rw [abs_lt]; constructor <;> linarith)
  simp only [indices, indicesRaw_at hT, ei, ej, Option.map_some, Option.some.injEq]
  by_cases hc : 0 ≤ i ∧ i < ny ∧ 0 ≤ j ∧ j < nx
  · rw [if_pos hc, if_neg (by omega)]
  · rw [if_neg hc, if_pos (by omega)]

/-- C10: every index returned is in range, and the point lies in the returned cell or on its
border. -/
theorem C10_returned_cell_contains (T : Xform) (ny nx : Nat) (x y : ℚ) (i j : Int)
    (h : indices T ny nx x y = some (.ok (i, j))) :
    0 ≤ i ∧ i < ny ∧ 0 ≤ j ∧ j < nx ∧ T.InClosedCell i j (x, y) := by
  unfold indices indicesRaw at h
  cases hp : positions T x y with
  | none => rw [hp] at h; cases h
  | some r =>
    obtain ⟨p, q⟩ := r
    rw [hp] at h
    simp only [Option.map_some, Option.some.injEq] at h
    by_cases hc : rint p < 0 ∨ rint p > (ny : Int) - 1 ∨ rint q < 0 ∨ rint q > (nx : Int) - 1
    · rw [if_pos hc] at h; cases h
    · rw [if_neg hc] at h
      simp only [Except.ok.injEq, Prod.mk.injEq] at h
      obtain ⟨rfl, rfl⟩ := h
      have a := abs_le.1 (rint_near p)
      have b := abs_le.1 (rint_near q)
      refine ⟨by omega, by omega, by omega, by omega, p + 1 / 2, q + 1 / 2, ?_, ?_, ?_, ?_,
        (positions_some hp).2⟩ <;> linarith [a.1, a.2, b.1, b.2]

/-- C10: a point outside the closed region of the grid raises `IndexError`. -/
theorem C10_outside_raises (T : Xform) (hT : T.Regular) (ny nx : Nat) (x y : ℚ)
    (h : ¬ T.InGrid ny nx (x, y)) : indices T ny nx x y = some (.error .indexError) := by
  obtain ⟨p, q, hp, hat⟩ := C09_position_round_trip T hT x y
  have : ∃ r, indices T ny nx x y = some r := by simp [indices, indicesRaw, hp]
  obtain ⟨r, hr⟩ := this
  cases r with
  | error e =>
    have : e = .indexError := by
      simp only [indices, indicesRaw, hp, Option.map_some, Option.some.injEq] at hr
      split_ifs at hr
      cases hr; rfl
    rw [hr, this]
  | ok ij =>
    obtain ⟨i, j⟩ := ij
    obtain ⟨h1, h2, h3, h4, u, v, a, b, c, d, e⟩ := C10_returned_cell_contains T ny nx x y i j hr
    exfalso
    apply h
    have q1 : (0 : ℚ) ≤ i := by exact_mod_cast h1
    have q2 : (i : ℚ) + 1 ≤ ny := by exact_mod_cast h2
    have q3 : (0 : ℚ) ≤ j := by exact_mod_cast h3
    have q4 : (j : ℚ) + 1 ≤ nx := by exact_mod_cast h4
    exact ⟨u, v, by linarith, by linarith, by linarith, by linarith, e⟩

theorem foldl_min_lt (l : List Int) (a c : Int) :
    l.foldl min a < c ↔ a < c ∨ ∃ x ∈ l, x < c := by
  induction l generalizing a with
  | nil => simp
  | cons b l ih => simp only [List.foldl_cons, ih, min_lt_iff, List.exists_mem_cons_iff]; tauto

theorem foldl_max_gt (l : List Int) (a c : Int) :
    l.foldl max a > c ↔ a > c ∨ ∃ x ∈ l, x > c := by
  induction l generalizing a with
  | nil => simp
  | cons b l ih => simp only [List.foldl_cons, ih, gt_iff_lt, lt_max_iff, List.exists_mem_cons_iff]; tauto

/-- C10 for vectors: the lookup of a non-empty list of points agrees with the single-point lookup:
it returns the list of indices when every point is on the grid, and raises `IndexError` otherwise. -/
theorem C10_vector_agrees (T : Xform) (hT : T.Regular) (ny nx : Nat) (pts : List (ℚ × ℚ))
    (hne : pts ≠ []) :
    (∃ ps, indicesVec T ny nx pts = some (.ok ps) ∧ ps.length = pts.length ∧
      ∀ (k : Nat) p q, pts[k]? = some p → ps[k]? = some q → indices T ny nx p.1 p.2 = some (.ok q)) ∨
    (indicesVec T ny nx pts = some (.error .indexError) ∧
      ∃ p ∈ pts, indices T ny nx p.1 p.2 = some (.error .indexError)) := by
  have hdef : ∀ p : ℚ × ℚ, ∃ r, indicesRaw T p.1 p.2 = some r := by
    intro p
    obtain ⟨a, b, hp, _⟩ := C09_position_round_trip T hT p.1 p.2
    simp [indicesRaw, hp]
  choose f hf using hdef
  have hmap : ∀ l : List (ℚ × ℚ), (l.mapM fun p => indicesRaw T p.1 p.2) = some (l.map f) := by
    intro l
    induction l with
    | nil => rfl
    | cons a l ih => rw [List.mapM_cons, hf a, ih]; rfl
  have hind : ∀ p : ℚ × ℚ, indices T ny nx p.1 p.2 = some (if (f p).1 < 0 ∨ (f p).1 > (ny : Int) - 1 ∨
      (f p).2 < 0 ∨ (f p).2 > (nx : Int) - 1 then .error .indexError else .ok (f p)) := by
    intro p; simp only [indices, hf p, Option.map_some]
  obtain ⟨a, l, rfl⟩ := List.exists_cons_of_ne_nil hne
  simp only [indicesVec, hmap, Option.map_some, List.map_cons, List.map_map]
  simp only [foldl_min_lt, foldl_max_gt, List.mem_map, Function.comp, exists_exists_and_eq_and]
  by_cases hc : ∃ p ∈ a :: l, (f p).1 < 0 ∨ (f p).1 > (ny : Int) - 1 ∨ (f p).2 < 0 ∨ (f p).2 > (nx : Int) - 1
  · right
    refine ⟨?_, ?_⟩
    · rw [if_pos]
      obtain ⟨p, hp, hq⟩ := hc
      rcases List.mem_cons.1 hp with rfl | hp
      · rcases hq with h | h | h | h <;> simp [h]
      · rcases hq with h | h | h | h
        · left; right; exact ⟨p, hp, h⟩
        · right; left; right; exact ⟨p, hp, h⟩
        · right; right; left; right; exact ⟨p, hp, h⟩
        · right; right; right; right; exact ⟨p, hp, h⟩
    · obtain ⟨p, hp, hq⟩ := hc
      exact ⟨p, hp, by rw [hind p, if_pos hq]⟩
  · left
    push Not at hc
    refine ⟨f a :: l.map f, ?_, by simp, ?_⟩
    · rw [if_neg]
      rintro ((h | ⟨p, hp, h⟩) | (h | ⟨p, hp, h⟩) | (h | ⟨p, hp, h⟩) | (h | ⟨p, hp, h⟩))
      · have := hc a (by simp); omega
      · have := hc p (by simp [hp]); omega
      · have := hc a (by simp); omega
      · have := hc p (by simp [hp]); omega
      · have := hc a (by simp); omega
      · have := hc p (by simp [hp]); omega
      · have := hc a (by simp); omega
      · have := hc p (by simp [hp]); omega
    · intro k p q hp hq
      rw [← List.map_cons, List.getElem?_map, hp] at hq
      simp only [Option.map_some, Option.some.injEq] at hq
      subst hq
      have := hc p (List.mem_of_getElem? hp)
      rw [hind p, if_neg (by omega)]

/-- C10, a boundary observation: on a one-column grid the outer corner above the last row is accepted
or refused depending on the parity of the number of rows. -/
theorem C10_border_depends_on_parity :
    indices ⟨0, 0, 1, 1, 0, 0⟩ 3 1 (1 / 2) 3 = some (.ok (2, 0)) ∧
    indices ⟨0, 0, 1, 1, 0, 0⟩ 2 1 (1 / 2) 2 = some (.error .indexError) := by
  constructor <;> decide +kernel

example : (⟨0, 0, 2, 3, 1 / 2, 0⟩ : Xform).InCell 1 2 (5, 4) ∧
    indices ⟨0, 0, 2, 3, 1 / 2, 0⟩ 4 4 5 4 = some (.ok (1, 2)) := by
  constructor
  · exact ⟨4 / 3, 13 / 6, by norm_num, by norm_num, by norm_num, by norm_num, by
      simp only [Xform.at, Prod.mk.injEq]; constructor <;> norm_num⟩
  · decide +kernel

/-! ### C19 -/

/-- Spec: `(a, b)` are the smallest and largest values of `f` over the index rectangle. -/
def TightRange (f : Nat → Nat → ℚ) (ny nx : Nat) (a b : ℚ) : Prop :=
  (∀ i j, i < ny → j < nx → a ≤ f i j ∧ f i j ≤ b) ∧
  (∃ i j, i < ny ∧ j < nx ∧ f i j = a) ∧ (∃ i j, i < ny ∧ j < nx ∧ f i j = b)

/-- Spec: the skew does not act against the spacing. -/
def Xform.Aligned (T : Xform) : Prop :=
  (T.sx = 0 ∨ 0 < T.dx * T.sx) ∧ (T.sy = 0 ∨ 0 < T.dy * T.sy)

theorem sgn_pos {a : ℚ} (h : 0 < a) : sgn a = 1 := by
  unfold sgn; rw [if_neg h.ne', abs_of_pos h, div_self h.ne']
theorem sgn_neg {a : ℚ} (h : a < 0) : sgn a = -1 := by
  unfold sgn; rw [if_neg h.ne, abs_of_neg h, div_neg, div_self h.ne]
theorem sgn_zero : sgn 0 = 0 := by simp [sgn]

/-- The far bound when the skew does not act against the spacing. -/
theorem farBound_aligned {x0 d s n m : ℚ} (h : s = 0 ∨ 0 < d * s) :
    farBound x0 d s n m = x0 + d * n + s * m := by
  unfold farBound
  rcases h with rfl | h
  · split_ifs <;> ring
  · rw [if_pos]
    rcases pos_and_pos_or_neg_and_neg_of_mul_pos h with ⟨a, b⟩ | ⟨a, b⟩
    · rw [sgn_pos a, sgn_pos b]
    · rw [sgn_neg a, sgn_neg b]

theorem tight_axis {x0 d s : ℚ} (h : s = 0 ∨ 0 < d * s) (N M : Nat) :
    (∀ i j : ℚ, 0 ≤ i → i ≤ M → 0 ≤ j → j ≤ N →
      min x0 (x0 + d * N + s * M) ≤ x0 + d * j + s * i ∧
      x0 + d * j + s * i ≤ max x0 (x0 + d * N + s * M)) := by
  have key : ∀ {d s : ℚ}, 0 ≤ d → 0 ≤ s → ∀ i j : ℚ, 0 ≤ i → i ≤ M → 0 ≤ j → j ≤ N →
      0 ≤ d * j + s * i ∧ d * j + s * i ≤ d * N + s * M := by
    intro d s hd hs i j h1 h2 h3 h4
    constructor
    · positivity
    · nlinarith [mul_le_mul_of_nonneg_left h4 hd, mul_le_mul_of_nonneg_left h2 hs]
  intro i j h1 h2 h3 h4
  have hcase : (0 ≤ d ∧ 0 ≤ s) ∨ (d ≤ 0 ∧ s ≤ 0) := by
    rcases h with rfl | h
    · rcases le_total 0 d with k | k
      · exact Or.inl ⟨k, le_refl _⟩
      · exact Or.inr ⟨k, le_refl _⟩
    · rcases pos_and_pos_or_neg_and_neg_of_mul_pos h with ⟨a, b⟩ | ⟨a, b⟩
      · exact Or.inl ⟨a.le, b.le⟩
      · exact Or.inr ⟨a.le, b.le⟩
  rcases hcase with ⟨a, b⟩ | ⟨a, b⟩
  · obtain ⟨k1, k2⟩ := key a b i j h1 h2 h3 h4
    exact ⟨le_trans (min_le_left _ _) (by linarith), le_trans (by linarith) (le_max_right _ _)⟩
  · obtain ⟨k1, k2⟩ := key (neg_nonneg.2 a) (neg_nonneg.2 b) i j h1 h2 h3 h4
    exact ⟨le_trans (min_le_right _ _) (by linarith), le_trans (by linarith) (le_max_left _ _)⟩

/-- C19 for pixel centres, when the skew does not act against the spacing: the extent contains every
pixel centre and both ends of both ranges are attained by a pixel centre.  Missing for the full C19:
skew of the opposite sign, or skew with zero spacing, see below. -/
theorem C19_center_extent_partial (T : Xform) (hT : T.Aligned) (ny nx : Nat) (hy : 0 < ny) (hx : 0 < nx) :
    TightRange (fun i j => (centerCoord T i j).1) ny nx (extent T ny nx true).1 (extent T ny nx true).2.1 ∧
    TightRange (fun i j => (centerCoord T i j).2) ny nx (extent T ny nx true).2.2.1 (extent T ny nx true).2.2.2 := by
  obtain ⟨h1, h2⟩ := hT
  obtain ⟨M, rfl⟩ : ∃ M, ny = M + 1 := ⟨ny - 1, by omega⟩
  obtain ⟨N, rfl⟩ : ∃ N, nx = N + 1 := ⟨nx - 1, by omega⟩
  simp only [extent, if_true]
  rw [farBound_aligned h1, farBound_aligned h2]
  have cN : ((N + 1 : Nat) : ℚ) + -1 = N := by push_cast; ring
  have cM : ((M + 1 : Nat) : ℚ) + -1 = M := by push_cast; ring
  rw [cN, cM]
  have exi : ∀ i j : Nat, (centerCoord T i j).1 = (centerLlref T).1 + T.dx * (j : ℚ) + T.sx * (i : ℚ) := by
    intro i j; simp only [centerCoord, centerLlref]; push_cast; ring
  have eyi : ∀ i j : Nat, (centerCoord T i j).2 = (centerLlref T).2 + T.dy * (i : ℚ) + T.sy * (j : ℚ) := by
    intro i j; simp only [centerCoord, centerLlref]; push_cast; ring
  refine ⟨⟨?_, ?_, ?_⟩, ⟨?_, ?_, ?_⟩⟩
  · intro i j hi hj
    simp only [exi]
    exact tight_axis h1 N M i j (by positivity) (by exact_mod_cast Nat.le_of_lt_succ hi) (by positivity)
      (by exact_mod_cast Nat.le_of_lt_succ hj)
  · simp only [exi]
    rcases min_choice (centerLlref T).1 ((centerLlref T).1 + T.dx * N + T.sx * M) with h | h
    · exact ⟨0, 0, by omega, by omega, by rw [h]; simp⟩
    · exact ⟨M, N, by omega, by omega, by rw [h]⟩
  · simp only [exi]
    rcases max_choice (centerLlref T).1 ((centerLlref T).1 + T.dx * N + T.sx * M) with h | h
    · exact ⟨0, 0, by omega, by omega, by rw [h]; simp⟩
    · exact ⟨M, N, by omega, by omega, by rw [h]⟩
  · intro i j hi hj
    simp only [eyi]
    exact tight_axis h2 M N j i (by positivity) (by exact_mod_cast Nat.le_of_lt_succ hj) (by positivity)
      (by exact_mod_cast Nat.le_of_lt_succ hi)
  · simp only [eyi]
    rcases min_choice (centerLlref T).2 ((centerLlref T).2 + T.dy * M + T.sy * N) with h | h
    · exact ⟨0, 0, by omega, by omega, by rw [h]; simp⟩
    · exact ⟨M, N, by omega, by omega, by rw [h]⟩
  · simp only [eyi]
    rcases max_choice (centerLlref T).2 ((centerLlref T).2 + T.dy * M + T.sy * N) with h | h
    · exact ⟨0, 0, by omega, by omega, by rw [h]; simp⟩
    · exact ⟨M, N, by omega, by omega, by rw [h]⟩

/-- C19 for pixel edges, under the same condition: the bounding box contains every point of every
cell and each side is attained at a corner of the grid. -/
theorem C19_edge_extent_partial (T : Xform) (hT : T.Aligned) (ny nx : Nat) :
    (∀ p, T.InGrid ny nx p →
      (bbox T ny nx).1 ≤ p.1 ∧ (bbox T ny nx).2.1 ≤ p.2 ∧
      p.1 ≤ (bbox T ny nx).2.2.1 ∧ p.2 ≤ (bbox T ny nx).2.2.2) ∧
    (∃ p q, T.InGrid ny nx p ∧ T.InGrid ny nx q ∧ p.1 = (bbox T ny nx).1 ∧ q.1 = (bbox T ny nx).2.2.1) ∧
    (∃ p q, T.InGrid ny nx p ∧ T.InGrid ny nx q ∧ p.2 = (bbox T ny nx).2.1 ∧ q.2 = (bbox T ny nx).2.2.2) := by
  obtain ⟨h1, h2⟩ := hT
  simp only [bbox, extent, Bool.false_eq_true, if_false, add_zero]
  rw [farBound_aligned h1, farBound_aligned h2]
  have c0 : T.InGrid ny nx (T.at 0 0) := ⟨0, 0, le_refl _, by positivity, le_refl _, by positivity, rfl⟩
  have c1 : T.InGrid ny nx (T.at ny nx) := ⟨ny, nx, by positivity, le_refl _, by positivity, le_refl _, rfl⟩
  have e0x : (T.at 0 0).1 = T.x0 := by simp [Xform.at]
  have e0y : (T.at 0 0).2 = T.y0 := by simp [Xform.at]
  have e1x : (T.at ny nx).1 = T.x0 + T.dx * nx + T.sx * ny := by simp only [Xform.at]; ring
  have e1y : (T.at ny nx).2 = T.y0 + T.dy * ny + T.sy * nx := by simp only [Xform.at]; ring
  refine ⟨?_, ?_, ?_⟩
  · rintro p ⟨u, v, a, b, c, d, rfl⟩
    obtain ⟨k1, k2⟩ := tight_axis (x0 := T.x0) h1 nx ny u v a b c d
    obtain ⟨k3, k4⟩ := tight_axis (x0 := T.y0) h2 ny nx v u c d a b
    have ex : (T.at u v).1 = T.x0 + T.dx * v + T.sx * u := by simp only [Xform.at]; ring
    have ey : (T.at u v).2 = T.y0 + T.dy * u + T.sy * v := by simp only [Xform.at]; ring
    rw [ex, ey]
    exact ⟨k1, k3, k2, k4⟩
  · rcases le_total T.x0 (T.x0 + T.dx * nx + T.sx * ny) with h | h
    · exact ⟨_, _, c0, c1, by rw [e0x, min_eq_left h], by rw [e1x, max_eq_right h]⟩
    · exact ⟨_, _, c1, c0, by rw [e1x, min_eq_right h], by rw [e0x, max_eq_left h]⟩
  · rcases le_total T.y0 (T.y0 + T.dy * ny + T.sy * nx) with h | h
    · exact ⟨_, _, c0, c1, by rw [e0y, min_eq_left h], by rw [e1y, max_eq_right h]⟩
    · exact ⟨_, _, c1, c0, by rw [e1y, min_eq_right h], by rw [e0y, max_eq_left h]⟩

/-- C19 is violated whenever the column skew acts against the column spacing: the centre of the last
row's first pixel lies outside the extent. -/
theorem C19_violated_opposite_skew (T : Xform) (ny nx : Nat) (hy : 1 < ny) (hx : 0 < nx)
    (h : T.dx * T.sx < 0) :
    ¬ ((extent T ny nx true).1 ≤ (centerCoord T (ny - 1 : Nat) 0).1 ∧
       (centerCoord T (ny - 1 : Nat) 0).1 ≤ (extent T ny nx true).2.1) := by
  obtain ⟨M, rfl⟩ : ∃ M, ny = M + 1 := ⟨ny - 1, by omega⟩
  obtain ⟨N, rfl⟩ : ∃ N, nx = N + 1 := ⟨nx - 1, by omega⟩
  have hM : (0 : ℚ) < M := by exact_mod_cast (by omega : 0 < M)
  have hN : (0 : ℚ) ≤ N := by positivity
  have e : (centerCoord T ((M + 1 - 1 : Nat) : Int) 0).1 = (centerLlref T).1 + T.sx * M := by
    simp only [centerCoord, centerLlref, Nat.add_sub_cancel]; push_cast; ring
  have cN : ((N + 1 : Nat) : ℚ) + -1 = N := by push_cast; ring
  have cM : ((M + 1 : Nat) : ℚ) + -1 = M := by push_cast; ring
  simp only [extent, if_true, cN, cM, e]
  unfold farBound
  rcases mul_neg_iff.1 h with ⟨a, b⟩ | ⟨a, b⟩
  · rw [sgn_pos a, sgn_neg b, if_neg (by norm_num)]
    rintro ⟨k1, _⟩
    rcases min_le_iff.1 k1 with k | k <;> nlinarith [mul_pos (neg_pos.2 b) hM, mul_nonneg a.le hN]
  · rw [sgn_neg a, sgn_pos b, if_neg (by norm_num)]
    rintro ⟨_, k2⟩
    rcases le_max_iff.1 k2 with k | k <;> nlinarith [mul_pos b hM, mul_nonneg (neg_pos.2 a).le hN]

example : (⟨0, 0, 1, -2, 1 / 2, 0⟩ : Xform).Aligned ∧
    extent ⟨0, 0, 1, -2, 1 / 2, 0⟩ 3 4 true = (3 / 4, 19 / 4, -5, -1) := by
  constructor
  · exact ⟨Or.inr (by norm_num), Or.inl rfl⟩
  · decide +kernel

/-! ### C64 -/

/-- C64 (partial): the entries of `vertex_coords` that are filled are the cell corners.  Missing for
the full C64: the last row, see below. -/
theorem C64_vertex_coords_partial (T : Xform) (ny nx i j : Nat) (hi : i < ny) (hj : j ≤ nx) :
    vertexCoord T ny nx i j = some (T.at i j) := by
  simp only [vertexCoord, hi, hj, and_self, if_true, Xform.at]

/-- C64 is violated: the last of the `ny + 1` rows of corners is never filled. -/
theorem C64_violated_last_row (T : Xform) (ny nx j : Nat) : vertexCoord T ny nx ny j = none := by
  simp [vertexCoord]

example : vertexCoord ⟨0, 0, 1, 1, 0, 0⟩ 2 2 1 2 = some (2, 1) := by decide +kernel

end Karta.Grid
