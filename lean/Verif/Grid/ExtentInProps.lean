import Verif.Grid.ExtentIn
import Verif.Grid.CoordProps
import Verif.Grid.WindowProps

/-!
# C167: extents and clips in another coordinate system

An extent in another system should contain the grid as seen in that system, and a clip to a box given in another system should keep every
cell whose centre is in that box.  Both convert the four corners of a box only.  That is right for conversions along which each coordinate of
the image goes one way only when one coordinate of the position changes (`OneWay`): affine maps, cylindrical projections.  It is wrong for
conversions that bend the sides of the box.
-/

namespace Karta.ExtIn
open Karta Karta.Grid

/-! ### Specification -/

/-- A function of one number that only grows or only falls. -/
def Runs (f : ℚ → ℚ) : Prop := Monotone f ∨ Antitone f

/-- Along each horizontal and each vertical line, each coordinate of the image goes one way (which way may depend on the line). -/
def OneWay (move : ℚ × ℚ → ℚ × ℚ) : Prop :=
  (∀ y, Runs fun x => (move (x, y)).1) ∧ (∀ x, Runs fun y => (move (x, y)).1) ∧
  (∀ y, Runs fun x => (move (x, y)).2) ∧ (∀ x, Runs fun y => (move (x, y)).2)

/-- The position lies in the box `(xmin, xmax, ymin, ymax)`. -/
def InBox (b : ℚ × ℚ × ℚ × ℚ) (p : ℚ × ℚ) : Prop := b.1 ≤ p.1 ∧ p.1 ≤ b.2.1 ∧ b.2.2.1 ≤ p.2 ∧ p.2 ≤ b.2.2.2

/-- Every affine map. -/
def affine (a b c d e f : ℚ) (p : ℚ × ℚ) : ℚ × ℚ := (a * p.1 + b * p.2 + c, d * p.1 + e * p.2 + f)

theorem runs_linear (a c : ℚ) : Runs fun x => a * x + c := by
  rcases le_total 0 a with h | h
  · exact Or.inl fun x y hxy => by have := mul_le_mul_of_nonneg_left hxy h; dsimp only; linarith
  · exact Or.inr fun x y hxy => by have := mul_le_mul_of_nonpos_left hxy h; dsimp only; linarith

theorem affine_oneWay (a b c d e f : ℚ) : OneWay (affine a b c d e f) := by
  refine ⟨fun y => ?_, fun x => ?_, fun y => ?_, fun x => ?_⟩
  · have := runs_linear a (b * y + c); simpa only [affine, ← add_assoc] using this
  · have := runs_linear b (a * x + c)
    have h : (fun y => (affine a b c d e f (x, y)).1) = fun y => b * y + (a * x + c) := by funext y; simp only [affine]; ring
    rw [h]; exact this
  · have := runs_linear d (e * y + f); simpa only [affine, ← add_assoc] using this
  · have := runs_linear e (d * x + f)
    have h : (fun y => (affine a b c d e f (x, y)).2) = fun y => e * y + (d * x + f) := by funext y; simp only [affine]; ring
    rw [h]; exact this

/-- Cylindrical projections: each coordinate by itself, in one direction. -/
theorem cylindrical_oneWay {f g : ℚ → ℚ} (hf : Monotone f) (hg : Monotone g) : OneWay fun p => (f p.1, g p.2) :=
  ⟨fun _ => Or.inl hf, fun _ => Or.inl fun _ _ _ => le_rfl, fun _ => Or.inl fun _ _ _ => le_rfl, fun _ => Or.inl hg⟩

/-! ### Boxes -/

theorem runs_between {f : ℚ → ℚ} (h : Runs f) {a b x : ℚ} (h1 : min a b ≤ x) (h2 : x ≤ max a b) :
    min (f a) (f b) ≤ f x ∧ f x ≤ max (f a) (f b) := by
  rcases le_total a b with k | k
  · rw [min_eq_left k] at h1; rw [max_eq_right k] at h2
    rcases h with h | h
    · exact ⟨(min_le_left _ _).trans (h h1), (h h2).trans (le_max_right _ _)⟩
    · exact ⟨(min_le_right _ _).trans (h h2), (h h1).trans (le_max_left _ _)⟩
  · rw [min_eq_right k] at h1; rw [max_eq_left k] at h2
    rcases h with h | h
    · exact ⟨(min_le_right _ _).trans (h h1), (h h2).trans (le_max_left _ _)⟩
    · exact ⟨(min_le_left _ _).trans (h h2), (h h1).trans (le_max_right _ _)⟩

theorem least_le (a b c d : ℚ) : least a b c d ≤ a ∧ least a b c d ≤ b ∧ least a b c d ≤ c ∧ least a b c d ≤ d := by
  unfold least
  refine ⟨?_, ?_, ?_, ?_⟩ <;> simp

theorem le_largest (a b c d : ℚ) : a ≤ largest a b c d ∧ b ≤ largest a b c d ∧ c ≤ largest a b c d ∧ d ≤ largest a b c d := by
  unfold largest
  refine ⟨?_, ?_, ?_, ?_⟩ <;> simp

theorem least_mem (a b c d : ℚ) : least a b c d = a ∨ least a b c d = b ∨ least a b c d = c ∨ least a b c d = d := by
  unfold least
  rcases min_choice (min (min a b) c) d with h | h
  · rcases min_choice (min a b) c with k | k
    · rcases min_choice a b with l | l
      · exact Or.inl (h.trans (k.trans l))
      · exact Or.inr (Or.inl (h.trans (k.trans l)))
    · exact Or.inr (Or.inr (Or.inl (h.trans k)))
  · exact Or.inr (Or.inr (Or.inr h))

theorem largest_mem (a b c d : ℚ) : largest a b c d = a ∨ largest a b c d = b ∨ largest a b c d = c ∨ largest a b c d = d := by
  unfold largest
  rcases max_choice (max (max a b) c) d with h | h
  · rcases max_choice (max a b) c with k | k
    · rcases max_choice a b with l | l
      · exact Or.inl (h.trans (k.trans l))
      · exact Or.inr (Or.inl (h.trans (k.trans l)))
    · exact Or.inr (Or.inr (Or.inl (h.trans k)))
  · exact Or.inr (Or.inr (Or.inr h))

/-- One coordinate of the image. -/
theorem coord_between {F : ℚ → ℚ → ℚ} (hx : ∀ y, Runs fun x => F x y) (hy : ∀ x, Runs fun y => F x y) {x0 x1 y0 y1 x y : ℚ}
    (h1 : min x0 x1 ≤ x) (h2 : x ≤ max x0 x1) (h3 : min y0 y1 ≤ y) (h4 : y ≤ max y0 y1) :
    least (F x0 y0) (F x0 y1) (F x1 y0) (F x1 y1) ≤ F x y ∧ F x y ≤ largest (F x0 y0) (F x0 y1) (F x1 y0) (F x1 y1) := by
  obtain ⟨a1, a2⟩ := runs_between (hx y) h1 h2
  obtain ⟨b1, b2⟩ := runs_between (hy x0) h3 h4
  obtain ⟨c1, c2⟩ := runs_between (hy x1) h3 h4
  obtain ⟨l1, l2, l3, l4⟩ := least_le (F x0 y0) (F x0 y1) (F x1 y0) (F x1 y1)
  obtain ⟨m1, m2, m3, m4⟩ := le_largest (F x0 y0) (F x0 y1) (F x1 y0) (F x1 y1)
  constructor
  · exact (le_min ((le_min l1 l2).trans b1) ((le_min l3 l4).trans c1)).trans a1
  · exact a2.trans (max_le (b2.trans (max_le m1 m2)) (c2.trans (max_le m3 m4)))

theorem boxOf_contains {move : ℚ × ℚ → ℚ × ℚ} (hm : OneWay move) {x0 x1 y0 y1 : ℚ} {p : ℚ × ℚ}
    (h1 : min x0 x1 ≤ p.1) (h2 : p.1 ≤ max x0 x1) (h3 : min y0 y1 ≤ p.2) (h4 : p.2 ≤ max y0 y1) :
    InBox (boxOf move (x0, x1, y0, y1)) (move p) := by
  obtain ⟨a, b⟩ := coord_between (F := fun x y => (move (x, y)).1) hm.1 hm.2.1 h1 h2 h3 h4
  obtain ⟨c, d⟩ := coord_between (F := fun x y => (move (x, y)).2) hm.2.2.1 hm.2.2.2 h1 h2 h3 h4
  exact ⟨a, b, c, d⟩

theorem extent_eq (T : Xform) (ny nx : Nat) (center : Bool) :
    extent T ny nx center =
      (min (farCorners T ny nx center).1 (farCorners T ny nx center).2.1, max (farCorners T ny nx center).1 (farCorners T ny nx center).2.1,
       min (farCorners T ny nx center).2.2.1 (farCorners T ny nx center).2.2.2,
       max (farCorners T ny nx center).2.2.1 (farCorners T ny nx center).2.2.2) := rfl

/-! ### Theorems -/

/-- C167, extents of centres: for conversions without bends and grids whose skew does not oppose the spacing, every centre is, in the other
system, in the extent.  Missing for the full C167: conversions that bend (violated below) and opposing skew (C19). -/
theorem C167_centers_partial (move : ℚ × ℚ → ℚ × ℚ) (hm : OneWay move) (T : Xform) (hT : T.Aligned) (ny nx i j : Nat) (hi : i < ny)
    (hj : j < nx) : InBox (extentIn move T ny nx true) (move (centerCoord T i j)) := by
  obtain ⟨⟨a, -, -⟩, ⟨b, -, -⟩⟩ := C19_center_extent_partial T hT ny nx (by omega) (by omega)
  obtain ⟨a1, a2⟩ := a i j hi hj
  obtain ⟨b1, b2⟩ := b i j hi hj
  exact boxOf_contains hm a1 a2 b1 b2

/-- C167, extents of edges: every point of every cell. -/
theorem C167_edges_partial (move : ℚ × ℚ → ℚ × ℚ) (hm : OneWay move) (T : Xform) (hT : T.Aligned) (ny nx : Nat) (p : ℚ × ℚ)
    (hp : T.InGrid ny nx p) : InBox (extentIn move T ny nx false) (move p) := by
  obtain ⟨a1, b1, a2, b2⟩ := (C19_edge_extent_partial T hT ny nx).1 p hp
  exact boxOf_contains hm a1 a2 b1 b2

/-- C167, no larger than needed: without skew, each bound of the extent is the coordinate of a corner pixel's centre (for `center`), or of a
corner of the grid, in the other system, whatever the conversion. -/
theorem C167_tight_partial (move : ℚ × ℚ → ℚ × ℚ) (T : Xform) (hsx : T.sx = 0) (hsy : T.sy = 0) (ny nx : Nat) (hy : 0 < ny) (hx : 0 < nx)
    (center : Bool) :
    ∃ S : List (ℚ × ℚ), (∀ p ∈ S, if center then ∃ i j : Nat, i < ny ∧ j < nx ∧ p = centerCoord T i j else T.InGrid ny nx p) ∧
      (∃ p ∈ S, (move p).1 = (extentIn move T ny nx center).1) ∧ (∃ p ∈ S, (move p).1 = (extentIn move T ny nx center).2.1) ∧
      (∃ p ∈ S, (move p).2 = (extentIn move T ny nx center).2.2.1) ∧ (∃ p ∈ S, (move p).2 = (extentIn move T ny nx center).2.2.2) := by
  obtain ⟨x0, x1, y0, y1, e⟩ : ∃ x0 x1 y0 y1, farCorners T ny nx center = (x0, x1, y0, y1) := ⟨_, _, _, _, rfl⟩
  refine ⟨[(x0, y0), (x0, y1), (x1, y0), (x1, y1)], ?_, ?_⟩
  · obtain ⟨M, rfl⟩ : ∃ M, ny = M + 1 := ⟨ny - 1, by omega⟩
    obtain ⟨N, rfl⟩ : ∃ N, nx = N + 1 := ⟨nx - 1, by omega⟩
    simp only [farCorners, Prod.mk.injEq] at e
    obtain ⟨e1, e2, e3, e4⟩ := e
    rw [farBound_aligned (Or.inl hsx)] at e2
    rw [farBound_aligned (Or.inl hsy)] at e4
    cases center with
    | true =>
      simp only [if_true] at e1 e2 e3 e4 ⊢
      have k1 : x0 = T.x0 + 1 / 2 * T.dx := by rw [← e1]; simp [centerLlref, hsx]
      have k3 : y0 = T.y0 + 1 / 2 * T.dy := by rw [← e3]; simp [centerLlref, hsy]
      have k2 : x1 = T.x0 + ((N : ℚ) + 1 / 2) * T.dx := by rw [← e2, e1, k1, hsx]; push_cast; ring
      have k4 : y1 = T.y0 + ((M : ℚ) + 1 / 2) * T.dy := by rw [← e4, e3, k3, hsy]; push_cast; ring
      intro p hp
      simp only [List.mem_cons, List.not_mem_nil, or_false] at hp
      rcases hp with rfl | rfl | rfl | rfl
      · exact ⟨0, 0, by omega, by omega, by rw [k1, k3]; simp [centerCoord, hsx, hsy]⟩
      · exact ⟨M, 0, by omega, by omega, by rw [k1, k4]; simp [centerCoord, hsx, hsy]⟩
      · exact ⟨0, N, by omega, by omega, by rw [k2, k3]; simp [centerCoord, hsx, hsy]⟩
      · exact ⟨M, N, by omega, by omega, by rw [k2, k4]; simp [centerCoord, hsx, hsy]⟩
    | false =>
      simp only [Bool.false_eq_true, if_false, add_zero] at e1 e2 e3 e4 ⊢
      have k2 : x1 = T.x0 + ((N + 1 : Nat) : ℚ) * T.dx := by rw [← e2, hsx]; ring
      have k4 : y1 = T.y0 + ((M + 1 : Nat) : ℚ) * T.dy := by rw [← e4, hsy]; ring
      have zN : (0 : ℚ) ≤ ((N + 1 : Nat) : ℚ) := by positivity
      have zM : (0 : ℚ) ≤ ((M + 1 : Nat) : ℚ) := by positivity
      intro p hp
      simp only [List.mem_cons, List.not_mem_nil, or_false] at hp
      rcases hp with rfl | rfl | rfl | rfl
      · exact ⟨0, 0, le_rfl, zM, le_rfl, zN, by rw [← e1, ← e3]; simp [Xform.at]⟩
      · exact ⟨_, 0, zM, le_rfl, le_rfl, zN, by rw [← e1, k4]; simp [Xform.at, hsx]⟩
      · exact ⟨0, _, le_rfl, zM, zN, le_rfl, by rw [k2, ← e3]; simp [Xform.at, hsy]⟩
      · exact ⟨_, _, zM, le_rfl, zN, le_rfl, by rw [k2, k4]; simp [Xform.at, hsx, hsy]⟩
  · have pick : ∀ {f : ℚ × ℚ → ℚ} {v : ℚ}, (v = f (x0, y0) ∨ v = f (x0, y1) ∨ v = f (x1, y0) ∨ v = f (x1, y1)) →
        ∃ p ∈ [(x0, y0), (x0, y1), (x1, y0), (x1, y1)], f p = v := by
      intro f v h
      rcases h with h | h | h | h <;> exact ⟨_, by simp, h.symm⟩
    unfold extentIn
    rw [e]
    exact ⟨pick (f := fun p => (move p).1) (least_mem ..), pick (f := fun p => (move p).1) (largest_mem ..),
      pick (f := fun p => (move p).2) (least_mem ..), pick (f := fun p => (move p).2) (largest_mem ..)⟩

/-- C167 for clips: for conversions without bends, if the box around the converted corners lies in the grid, the clip is a window of the
grid that has every cell whose centre is the image of a position in the given box. -/
theorem C167_clip_partial {α : Type} {g : RGrid α} {H W : Nat} {Ps : List (Int → Int → α)} (hg : g.Holds H W Ps) (zero garb : α)
    (hT : g.t.Regular) (move : ℚ × ℚ → ℚ × ℚ) (hm : OneWay move) (xmin xmax ymin ymax : ℚ) (b : ℚ × ℚ × ℚ × ℚ)
    (hb : b = boxOf move (xmin, xmax, ymin, ymax))
    (h1 : g.t.InGrid H W (b.1, b.2.2.1)) (h2 : g.t.InGrid H W (b.2.1, b.2.2.1))
    (h3 : g.t.InGrid H W (b.1, b.2.2.2)) (h4 : g.t.InGrid H W (b.2.1, b.2.2.2)) :
    ∃ g' i0 j0 h w, clipIn zero garb move g xmin xmax ymin ymax = some (.ok g') ∧ WindowOf g g' H W Ps i0 j0 h w ∧
      ∀ y x : Nat, y < H → x < W → ∀ p, InBox (xmin, xmax, ymin, ymax) p → move p = centerCoord g.t y x →
        (⟨i0, j0, h, w⟩ : Win).Has y x := by
  obtain ⟨g', i0, j0, h, w, e, hw, hin, -⟩ := C12_clip hg zero garb hT b.1 b.2.1 b.2.2.1 b.2.2.2 h1 h2 h3 h4
  refine ⟨g', i0, j0, h, w, ?_, hw, ?_⟩
  · unfold clipIn; rw [← hb]; exact e
  · intro y x hy hx p ⟨k1, k2, k3, k4⟩ hp
    obtain ⟨l1, l2, l3, l4⟩ := boxOf_contains hm (p := p) ((min_le_left xmin xmax).trans k1) (k2.trans (le_max_right xmin xmax))
      ((min_le_left ymin ymax).trans k3) (k4.trans (le_max_right ymin ymax))
    rw [← hb, hp] at l1 l2 l3 l4
    exact hin y x hy hx l1 l2 l3 l4

/-- A conversion that bends horizontal lines, as conic and transverse projections do. -/
def bend (p : ℚ × ℚ) : ℚ × ℚ := (p.1, p.2 - p.1 * p.1)

/-- C167 is violated by conversions that bend: of every grid of at least three columns that is symmetric about `x = 0`, the cell in the
middle of the top row is outside the extent in the other system (rows listed from below). -/
theorem C167_violated_bend (T : Xform) (hsx : T.sx = 0) (hsy : T.sy = 0) (hdx : 0 < T.dx) (hdy : 0 < T.dy) (M N : Nat) (hN : 0 < N)
    (hx : T.x0 = -(((N : ℚ) + 1 / 2) * T.dx)) :
    ¬ InBox (extentIn bend T (M + 1) (2 * N + 1) true) (bend (centerCoord T M N)) := by
  rintro ⟨-, -, -, h⟩
  have hc : bend (centerCoord T M N) = (0, T.y0 + ((M : ℚ) + 1 / 2) * T.dy) := by
    have : (centerCoord T M N).1 = 0 := by simp [centerCoord, hsx, hx]
    simp only [bend, this]
    simp [centerCoord, hsy]
  rw [hc] at h
  have hN' : (0 : ℚ) < N := by exact_mod_cast hN
  have hM' : (0 : ℚ) ≤ M := by positivity
  have k1 : (farCorners T (M + 1) (2 * N + 1) true).1 = -(N * T.dx) := by
    simp only [farCorners, if_true, centerLlref, hsx, hx]; ring
  have k3 : (farCorners T (M + 1) (2 * N + 1) true).2.2.1 = T.y0 + 1 / 2 * T.dy := by
    simp only [farCorners, if_true, centerLlref, hsy]; ring
  have k2 : (farCorners T (M + 1) (2 * N + 1) true).2.1 = N * T.dx := by
    simp only [farCorners, if_true]
    rw [farBound_aligned (Or.inl hsx)]
    simp only [centerLlref, hsx, hx]; push_cast; ring
  have k4 : (farCorners T (M + 1) (2 * N + 1) true).2.2.2 = T.y0 + ((M : ℚ) + 1 / 2) * T.dy := by
    simp only [farCorners, if_true]
    rw [farBound_aligned (Or.inl hsy)]
    simp only [centerLlref, hsy]; push_cast; ring
  have hp : 0 < (N : ℚ) * T.dx * (N * T.dx) := by positivity
  have hq : 0 ≤ (M : ℚ) * T.dy := by positivity
  simp only [extentIn, boxOf, k1, k2, k3, k4, bend] at h
  rcases largest_mem (T.y0 + 1 / 2 * T.dy - -(↑N * T.dx) * -(↑N * T.dx))
    (T.y0 + (↑M + 1 / 2) * T.dy - -(↑N * T.dx) * -(↑N * T.dx)) (T.y0 + 1 / 2 * T.dy - ↑N * T.dx * (↑N * T.dx))
    (T.y0 + (↑M + 1 / 2) * T.dy - ↑N * T.dx * (↑N * T.dx)) with e | e | e | e <;> rw [e] at h <;> nlinarith

theorem bend_box (r ymin ymax : ℚ) (hr : 0 < r) : ¬ InBox (boxOf bend (-r, r, ymin, ymax)) (0, max ymin ymax) := by
  rintro ⟨-, -, -, k⟩
  simp only [boxOf, bend] at k
  have hp : 0 < r * r := mul_pos hr hr
  have h1 := le_max_left ymin ymax
  have h2 := le_max_right ymin ymax
  rcases largest_mem (ymin - -r * -r) (ymax - -r * -r) (ymin - r * r) (ymax - r * r) with e | e | e | e <;> rw [e] at k <;> nlinarith

/-- C167 is violated for clips alike: for every box symmetric about `x = 0`, the cell with its centre in the middle of the upper side of the
box as seen in the other system is not in the result. -/
theorem C167_violated_clip {α : Type} {g : RGrid α} {H W : Nat} {Ps : List (Int → Int → α)} (hg : g.Holds H W Ps) (zero garb : α)
    (hT : g.t.Regular) (hsx : g.t.sx = 0) (hsy : g.t.sy = 0) (r ymin ymax : ℚ) (hr : 0 < r) (hy : ymin ≤ ymax) (b : ℚ × ℚ × ℚ × ℚ)
    (hb : b = boxOf bend (-r, r, ymin, ymax))
    (h1 : g.t.InGrid H W (b.1, b.2.2.1)) (h2 : g.t.InGrid H W (b.2.1, b.2.2.1))
    (h3 : g.t.InGrid H W (b.1, b.2.2.2)) (h4 : g.t.InGrid H W (b.2.1, b.2.2.2)) (i j : Nat)
    (hc : centerCoord g.t i j = bend (0, ymax)) :
    InBox (-r, r, ymin, ymax) (0, ymax) ∧
    ∃ g' i0 j0 h w, clipIn zero garb bend g (-r) r ymin ymax = some (.ok g') ∧ WindowOf g g' H W Ps i0 j0 h w ∧
      ¬ (⟨i0, j0, h, w⟩ : Win).Has i j := by
  refine ⟨⟨by simpa using hr.le, hr.le, hy, le_rfl⟩, ?_⟩
  obtain ⟨g', i0, j0, h, w, e, hw, -, hout⟩ := C12_clip hg zero garb hT b.1 b.2.1 b.2.2.1 b.2.2.2 h1 h2 h3 h4
  refine ⟨g', i0, j0, h, w, ?_, hw, ?_⟩
  · unfold clipIn; rw [← hb]; exact e
  · intro hi
    have hin := hout hsx hsy ?_ ?_ i j hi
    · have k := bend_box r ymin ymax hr
      rw [← hb, max_eq_right hy] at k
      rw [hc] at hin
      apply k
      simpa [bend, InBox] using hin
    · rw [hb]; exact (least_le ..).1.trans (le_largest ..).1
    · rw [hb]; exact (least_le ..).1.trans (le_largest ..).1

/-! ### Examples -/

/-- A rotation by a quarter turn with a shift, of a skewed grid. -/
example : OneWay (affine 0 (-1) 3 1 0 5) ∧ (⟨0, 0, 1, 2, 1 / 2, 0⟩ : Xform).Aligned ∧
    extentIn (affine 0 (-1) 3 1 0 5) ⟨0, 0, 1, 2, 1 / 2, 0⟩ 3 4 true = (-2, 2, 23 / 4, 39 / 4) :=
  ⟨affine_oneWay .., ⟨Or.inr (by norm_num), Or.inl rfl⟩, by decide +kernel⟩

/-- The extent of the bent grid ends below the middle of its top row. -/
example : extentIn bend ⟨-3 / 2, 0, 1, 1, 0, 0⟩ 2 3 true = (-1, 1, -1 / 2, 1 / 2) ∧
    bend (centerCoord ⟨-3 / 2, 0, 1, 1, 0, 0⟩ 1 1) = (0, 3 / 2) := by
  constructor <;> decide +kernel

/-- A grid and a box that meet the conditions of the clip theorems, with both kinds of conversion. -/
example : ∃ (g : RGrid Int) (Ps : List (Int → Int → Int)), g.Holds 5 5 Ps ∧ g.t.Regular ∧ g.t.sx = 0 ∧ g.t.sy = 0 ∧
    (∀ move, move = bend ∨ move = affine 1 0 0 0 (1 / 2) (-1) → ∀ b, b = boxOf move (-1, 1, -1, 1 / 2) →
      g.t.InGrid 5 5 (b.1, b.2.2.1) ∧ g.t.InGrid 5 5 (b.2.1, b.2.2.1) ∧ g.t.InGrid 5 5 (b.1, b.2.2.2) ∧ g.t.InGrid 5 5 (b.2.1, b.2.2.2)) ∧
    centerCoord g.t (4 : Nat) (2 : Nat) = bend (0, 1 / 2) := by
  obtain ⟨g, Ps, -, ht, h⟩ := fromValues_holds (0 : Int) 0 ⟨-5 / 2, -4, 1, 1, 0, 0⟩ (-9) 5 5 2 (by norm_num)
    (fun y x k => 100 * k + 10 * y + x)
  refine ⟨g, Ps, h, ?_⟩
  rw [ht]
  have hin : ∀ x y : ℚ, -5 / 2 ≤ x → x ≤ 5 / 2 → -4 ≤ y → y ≤ 1 → (⟨-5 / 2, -4, 1, 1, 0, 0⟩ : Xform).InGrid 5 5 (x, y) := fun x y a b c d =>
    ⟨y + 4, x + 5 / 2, by linarith, by norm_num; linarith, by linarith, by norm_num; linarith, by simp [Xform.at]; ring⟩
  refine ⟨by constructor <;> norm_num, rfl, rfl, ?_, by decide +kernel⟩
  rintro move hm b rfl
  rcases hm with rfl | rfl
  · have e : boxOf bend (-1, 1, -1, 1 / 2) = (-1, 1, -2, -1 / 2) := by decide +kernel
    rw [e]
    refine ⟨?_, ?_, ?_, ?_⟩ <;> apply hin <;> norm_num
  · have e : boxOf (affine 1 0 0 0 (1 / 2) (-1)) (-1, 1, -1, 1 / 2) = (-1, 1, -3 / 2, -3 / 4) := by decide +kernel
    rw [e]
    refine ⟨?_, ?_, ?_, ?_⟩ <;> apply hin <;> norm_num

end Karta.ExtIn
