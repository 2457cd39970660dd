import Verif.Grid.Surface
import Mathlib.Tactic.Ring
import Mathlib.Tactic.FieldSimp
import Mathlib.Tactic.Linarith
import Mathlib.Tactic.Positivity
import Mathlib.Tactic.NormNum
import Mathlib.Algebra.CharZero.Defs

/-!
Properties C53 and C78-C81: surface derivatives.
-/

namespace Karta.Surface
open Karta

/-! ### Specification -/

section Spec
variable {K : Type _}

/-- Coordinates of the centre of a cell of an unskewed grid. -/
def centreX [Field K] (g : FGrid K) (c : Nat) : K := g.x0 + ((c : K) + 1 / 2) * g.dx
def centreY [Field K] (g : FGrid K) (r : Nat) : K := g.y0 + ((r : K) + 1 / 2) * g.dy

/-- The value in band `k` at row `i`, column `j`, if it is a number. -/
def FGrid.px (g : FGrid K) (k i j : Nat) : Option K :=
  (g.bands[k]?).bind fun b => if i < b.ny ∧ j < b.nx then b.get i j else none

/-- Band `k` has `ny` rows and `nx` columns. -/
def FGrid.HasSize (g : FGrid K) (k ny nx : Nat) : Prop := ∃ b, g.bands[k]? = some b ∧ b.ny = ny ∧ b.nx = nx

/-- No band has the nodata value at row `i`, column `j`. -/
def FGrid.IsData (g : FGrid K) (i j : Nat) : Prop := ∀ b ∈ g.bands, b.get i j ≠ g.nodata

/-- Two grids share their georeferencing. -/
def FGrid.SamePlace (g h : FGrid K) : Prop :=
  g.x0 = h.x0 ∧ g.y0 = h.y0 ∧ g.dx = h.dx ∧ g.dy = h.dy ∧ g.sx = h.sx ∧ g.sy = h.sy

end Spec

/-! ### Slices -/

section
variable {K : Type _}

theorem sliceStart_nat {n r : Nat} (h : r ≤ n) : Py.sliceStart n (r : Int) = r := by
  unfold Py.sliceStart
  rw [if_neg (by omega)]
  simp only [Int.toNat_natCast]
  omega

theorem sliceLen_win (n r : Nat) (hr : r ≤ 2) : Py.sliceLen n (r : Int) ((n : Int) - 2 + r) = n - 2 := by
  unfold Py.sliceLen Py.sliceStart
  rw [if_neg (by omega : ¬ ((r : Int) < 0))]
  split_ifs <;> omega

theorem win_ny (D : Arr (Option K)) {r c : Nat} (hr : r ≤ 2) : (win D r c).ny = D.ny - 2 := sliceLen_win _ _ hr
theorem win_nx (D : Arr (Option K)) {r c : Nat} (hc : c ≤ 2) : (win D r c).nx = D.nx - 2 := sliceLen_win _ _ hc

theorem win_get (D : Arr (Option K)) {r c : Nat} (hr : r ≤ D.ny) (hc : c ≤ D.nx) (i j : Nat) :
    (win D r c).get i j = D.get (r + i) (c + j) := by
  unfold win Arr.slice
  simp only [sliceStart_nat hr, sliceStart_nat hc]

theorem lift2_eq_some {f : K → K → K} {a b : Option K} {v : K} :
    lift2 f a b = some v ↔ ∃ x y, a = some x ∧ b = some y ∧ f x y = v := by
  cases a <;> cases b <;> simp [lift2]

theorem lift2_eq_none {f : K → K → K} {a b : Option K} : lift2 f a b = none ↔ a = none ∨ b = none := by
  cases a <;> cases b <;> simp [lift2]

variable [Field K]

theorem ddx_ny (D : Arr (Option K)) (h : K) : (ddx D h).ny = D.ny - 2 := win_ny (r := 1) (c := 2) D (by omega)
theorem ddx_nx (D : Arr (Option K)) (h : K) : (ddx D h).nx = D.nx - 2 := win_nx (r := 1) (c := 2) D (by omega)
theorem ddy_ny (D : Arr (Option K)) (h : K) : (ddy D h).ny = D.ny - 2 := win_ny (r := 2) (c := 1) D (by omega)
theorem ddy_nx (D : Arr (Option K)) (h : K) : (ddy D h).nx = D.nx - 2 := win_nx (r := 2) (c := 1) D (by omega)

/-- Six values combined as the kernels do. -/
def six (h : K) (a b c d e f : Option K) : Option K :=
  (lift2 (· - ·) (lift2 (· + ·) (lift2 (· + ·) (a.map (2 * ·)) b) c)
    (lift2 (· + ·) (lift2 (· + ·) (d.map (2 * ·)) e) f)).map (· / (8 * h))

theorem six_some (h a b c d e f : K) : six h (some a) (some b) (some c) (some d) (some e) (some f) =
    some ((2 * a + b + c - (2 * d + e + f)) / (8 * h)) := rfl

theorem six_none {h : K} {a b c d e f : Option K} : six h a b c d e f = none ↔
    a = none ∨ b = none ∨ c = none ∨ d = none ∨ e = none ∨ f = none := by
  cases a <;> cases b <;> cases c <;> cases d <;> cases e <;> cases f <;> simp [six, lift2]

theorem ddx_get (D : Arr (Option K)) (h : K) {i j : Nat} (hi : i + 2 < D.ny) (hj : j + 2 < D.nx) :
    (ddx D h).get i j = six h (D.get (i + 1) (j + 2)) (D.get i (j + 2)) (D.get (i + 2) (j + 2))
      (D.get (i + 1) j) (D.get i j) (D.get (i + 2) j) := by
  unfold ddx six
  simp only [mapA, Arr.map, zip]
  rw [win_get D (by omega) (by omega), win_get D (by omega) (by omega), win_get D (by omega) (by omega),
    win_get D (by omega) (by omega), win_get D (by omega) (by omega), win_get D (by omega) (by omega)]
  simp only [Nat.add_comm _ i, Nat.add_comm _ j, Nat.add_zero]

theorem ddy_get (D : Arr (Option K)) (h : K) {i j : Nat} (hi : i + 2 < D.ny) (hj : j + 2 < D.nx) :
    (ddy D h).get i j = six h (D.get (i + 2) (j + 1)) (D.get (i + 2) (j + 2)) (D.get (i + 2) j)
      (D.get i (j + 1)) (D.get i j) (D.get i (j + 2)) := by
  unfold ddy six
  simp only [mapA, Arr.map, zip]
  rw [win_get D (by omega) (by omega), win_get D (by omega) (by omega), win_get D (by omega) (by omega),
    win_get D (by omega) (by omega), win_get D (by omega) (by omega), win_get D (by omega) (by omega)]
  simp only [Nat.add_comm _ i, Nat.add_comm _ j, Nat.add_zero]

/-- The gradient at an interior cell. -/
theorem gradX_get (D : Arr (Option K)) (h k : K) {i j : Nat} (hi : 1 ≤ i) (hi' : i + 1 < D.ny) (hj : 1 ≤ j)
    (hj' : j + 1 < D.nx) :
    (grad D h k).1.get i j = six h (D.get i (j + 1)) (D.get (i - 1) (j + 1)) (D.get (i + 1) (j + 1))
      (D.get i (j - 1)) (D.get (i - 1) (j - 1)) (D.get (i + 1) (j - 1)) := by
  unfold grad padNaN
  simp only [ddx_ny, ddx_nx]
  rw [if_pos (by omega), ddx_get D h (by omega) (by omega)]
  have e1 : i - 1 + 1 = i := by omega
  have e2 : i - 1 + 2 = i + 1 := by omega
  have e3 : j - 1 + 2 = j + 1 := by omega
  rw [e1, e2, e3]

theorem gradY_get (D : Arr (Option K)) (h k : K) {i j : Nat} (hi : 1 ≤ i) (hi' : i + 1 < D.ny) (hj : 1 ≤ j)
    (hj' : j + 1 < D.nx) :
    (grad D h k).2.get i j = six k (D.get (i + 1) j) (D.get (i + 1) (j + 1)) (D.get (i + 1) (j - 1))
      (D.get (i - 1) j) (D.get (i - 1) (j - 1)) (D.get (i - 1) (j + 1)) := by
  unfold grad padNaN
  simp only [ddy_ny, ddy_nx]
  rw [if_pos (by omega), ddy_get D k (by omega) (by omega)]
  have e1 : j - 1 + 1 = j := by omega
  have e2 : i - 1 + 2 = i + 1 := by omega
  have e3 : j - 1 + 2 = j + 1 := by omega
  rw [e1, e2, e3]

theorem grad_border (D : Arr (Option K)) (h k : K) {i j : Nat} (hb : i = 0 ∨ D.ny ≤ i + 1 ∨ j = 0 ∨ D.nx ≤ j + 1) :
    (grad D h k).1.get i j = none ∧ (grad D h k).2.get i j = none := by
  unfold grad padNaN
  simp only [ddy_ny, ddy_nx, ddx_ny, ddx_nx]
  rw [if_neg (by omega), if_neg (by omega)]
  exact ⟨rfl, rfl⟩

theorem grad_size (D : Arr (Option K)) (h k : K) :
    (grad D h k).1.ny = D.ny - 2 + 2 ∧ (grad D h k).1.nx = D.nx - 2 + 2 ∧
    (grad D h k).2.ny = D.ny - 2 + 2 ∧ (grad D h k).2.nx = D.nx - 2 + 2 := by
  unfold grad padNaN
  simp only [ddy_ny, ddy_nx, ddx_ny, ddx_nx]
  exact ⟨trivial, trivial, trivial, trivial⟩

end

/-! ### C53: planes, offsets, linearity -/

section
variable {K : Type _} [Field K] [DecidableEq K]

theorem masked_ok {g : FGrid K} {k : Nat} {b : Arr (Option K)} (hb : g.bands[k]? = some b) :
    ∃ D, masked g k = .ok D ∧ D.ny = b.ny ∧ D.nx = b.nx ∧
      (∀ i j, g.IsData i j → D.get i j = b.get i j) ∧ ∀ i j, ¬ g.IsData i j → D.get i j = none := by
  unfold masked
  rw [hb]
  refine ⟨_, rfl, rfl, rfl, fun i j h => ?_, fun i j h => ?_⟩
  · show (if _ then _ else _) = _
    rw [if_pos]
    simpa [FGrid.IsData] using h
  · show (if _ then _ else _) = _
    rw [if_neg]
    simpa [FGrid.IsData] using h

theorem gradient_ok {g : FGrid K} {k : Nat} {D : Arr (Option K)} (hs : g.sx = 0 ∧ g.sy = 0) (hD : masked g k = .ok D) :
    gradient g k = .ok (g.with (grad D g.dx g.dy).1, g.with (grad D g.dx g.dy).2) := by
  unfold gradient
  rw [if_pos hs, hD]

theorem with_px (g : FGrid K) (A : Arr (Option K)) (i j : Nat) :
    (g.with A).px 0 i j = if i < A.ny ∧ j < A.nx then A.get i j else none := rfl

/-- **C53.**  If the nine values around an interior cell are data and lie on the plane `p + q x + s y` (at the coordinates of
the cell centres), the gradient there is exactly `(q, s)`, whatever the signs of the cell sizes. -/
theorem C53_plane [CharZero K] {g : FGrid K} {k : Nat} {b : Arr (Option K)} (hb : g.bands[k]? = some b)
    (hs : g.sx = 0 ∧ g.sy = 0) (hdx : g.dx ≠ 0) (hdy : g.dy ≠ 0) (p q s : K) {i j : Nat}
    (hi : 1 ≤ i) (hi' : i + 1 < b.ny) (hj : 1 ≤ j) (hj' : j + 1 < b.nx)
    (hpl : ∀ r c, i - 1 ≤ r → r ≤ i + 1 → j - 1 ≤ c → c ≤ j + 1 →
      g.IsData r c ∧ b.get r c = some (p + q * centreX g c + s * centreY g r)) :
    ∃ gx gy, gradient g k = .ok (gx, gy) ∧ gx.px 0 i j = some q ∧ gy.px 0 i j = some s := by
  obtain ⟨D, hD, hny, hnx, hdat, _⟩ := masked_ok hb
  have hv : ∀ r c, i - 1 ≤ r → r ≤ i + 1 → j - 1 ≤ c → c ≤ j + 1 →
      D.get r c = some (p + q * centreX g c + s * centreY g r) := fun r c h1 h2 h3 h4 => by
    rw [hdat r c (hpl r c h1 h2 h3 h4).1, (hpl r c h1 h2 h3 h4).2]
  obtain ⟨s1, s2, s3, s4⟩ := grad_size D g.dx g.dy
  refine ⟨_, _, gradient_ok hs hD, ?_, ?_⟩
  · rw [with_px, if_pos (by omega), gradX_get D g.dx g.dy hi (by omega) hj (by omega),
      hv _ _ (by omega) (by omega) (by omega) (by omega), hv _ _ (by omega) (by omega) (by omega) (by omega),
      hv _ _ (by omega) (by omega) (by omega) (by omega), hv _ _ (by omega) (by omega) (by omega) (by omega),
      hv _ _ (by omega) (by omega) (by omega) (by omega), hv _ _ (by omega) (by omega) (by omega) (by omega), six_some]
    congr 1
    have ej : ((j + 1 : Nat) : K) = (j - 1 : Nat) + 2 := by
      have : j + 1 = (j - 1) + 2 := by omega
      rw [this]; push_cast; rfl
    unfold centreX centreY
    rw [ej]
    field_simp
    ring
  · rw [with_px, if_pos (by omega), gradY_get D g.dx g.dy hi (by omega) hj (by omega),
      hv _ _ (by omega) (by omega) (by omega) (by omega), hv _ _ (by omega) (by omega) (by omega) (by omega),
      hv _ _ (by omega) (by omega) (by omega) (by omega), hv _ _ (by omega) (by omega) (by omega) (by omega),
      hv _ _ (by omega) (by omega) (by omega) (by omega), hv _ _ (by omega) (by omega) (by omega) (by omega), six_some]
    congr 1
    have ej : ((i + 1 : Nat) : K) = (i - 1 : Nat) + 2 := by
      have : i + 1 = (i - 1) + 2 := by omega
      rw [this]; push_cast; rfl
    unfold centreX centreY
    rw [ej]
    field_simp
    ring

end

/-! ### Linearity -/

section
variable {K : Type _} [Field K]

theorem lift2_comb_add (α β : K) (a b a' b' : Option K) :
    lift2 (· + ·) (lift2 (fun x y => α * x + β * y) a a') (lift2 (fun x y => α * x + β * y) b b') =
    lift2 (fun x y => α * x + β * y) (lift2 (· + ·) a b) (lift2 (· + ·) a' b') := by
  cases a <;> cases b <;> cases a' <;> cases b' <;> simp only [lift2]
  congr 1; ring

theorem lift2_comb_sub (α β : K) (a b a' b' : Option K) :
    lift2 (· - ·) (lift2 (fun x y => α * x + β * y) a a') (lift2 (fun x y => α * x + β * y) b b') =
    lift2 (fun x y => α * x + β * y) (lift2 (· - ·) a b) (lift2 (· - ·) a' b') := by
  cases a <;> cases b <;> cases a' <;> cases b' <;> simp only [lift2]
  congr 1; ring

theorem map_comb_mul (α β k : K) (a a' : Option K) :
    (lift2 (fun x y => α * x + β * y) a a').map (k * ·) =
    lift2 (fun x y => α * x + β * y) (a.map (k * ·)) (a'.map (k * ·)) := by
  cases a <;> cases a' <;> simp only [lift2, Option.map]
  congr 1; ring

theorem map_comb_div (α β k : K) (a a' : Option K) :
    (lift2 (fun x y => α * x + β * y) a a').map (· / k) =
    lift2 (fun x y => α * x + β * y) (a.map (· / k)) (a'.map (· / k)) := by
  cases a <;> cases a' <;> simp only [lift2, Option.map]
  congr 1; ring

theorem six_comb (α β h : K) (a b c d e f a' b' c' d' e' f' : Option K) :
    six h (lift2 (fun x y => α * x + β * y) a a') (lift2 (fun x y => α * x + β * y) b b')
      (lift2 (fun x y => α * x + β * y) c c') (lift2 (fun x y => α * x + β * y) d d')
      (lift2 (fun x y => α * x + β * y) e e') (lift2 (fun x y => α * x + β * y) f f') =
    lift2 (fun x y => α * x + β * y) (six h a b c d e f) (six h a' b' c' d' e' f') := by
  unfold six
  rw [map_comb_mul, map_comb_mul, lift2_comb_add, lift2_comb_add, lift2_comb_add, lift2_comb_add, lift2_comb_sub,
    map_comb_div]

theorem six_offset (h k : K) (a b c d e f : Option K) :
    six h (a.map (· + k)) (b.map (· + k)) (c.map (· + k)) (d.map (· + k)) (e.map (· + k)) (f.map (· + k)) =
    six h a b c d e f := by
  cases a <;> cases b <;> cases c <;> cases d <;> cases e <;> cases f <;> simp only [six, lift2, Option.map]
  congr 1; ring

variable [DecidableEq K]

theorem masked_with (g : FGrid K) (A : Arr (Option K)) : masked (g.with A) 0 = .ok A := by
  unfold masked FGrid.with
  simp only [List.getElem?_cons_zero]
  have : (fun i j => if ([A].all fun b' => decide (b'.get i j ≠ none)) = true then A.get i j else none) = A.get := by
    funext i j
    cases h : A.get i j <;> simp [h]
  rw [this]

theorem gradient_with (g : FGrid K) (A : Arr (Option K)) (hs : g.sx = 0 ∧ g.sy = 0) :
    gradient (g.with A) 0 = .ok (g.with (grad A g.dx g.dy).1, g.with (grad A g.dx g.dy).2) :=
  gradient_ok (g := g.with A) hs (masked_with g A)

/-- `C` is the surface `α A + β B`, undefined where either is. -/
def IsComb (α β : K) (A B C : Arr (Option K)) : Prop :=
  A.ny = C.ny ∧ A.nx = C.nx ∧ B.ny = C.ny ∧ B.nx = C.nx ∧
  ∀ i j, i < C.ny → j < C.nx → C.get i j = lift2 (fun x y => α * x + β * y) (A.get i j) (B.get i j)

/-- **C53.**  The gradient of a combination of surfaces is the combination of the gradients, at every cell. -/
theorem C53_linear (g : FGrid K) (hs : g.sx = 0 ∧ g.sy = 0) (α β : K) {A B C : Arr (Option K)} (h : IsComb α β A B C) :
    ∃ ax ay bx by' cx cy, gradient (g.with A) 0 = .ok (ax, ay) ∧ gradient (g.with B) 0 = .ok (bx, by') ∧
      gradient (g.with C) 0 = .ok (cx, cy) ∧
      ∀ i j, cx.px 0 i j = lift2 (fun x y => α * x + β * y) (ax.px 0 i j) (bx.px 0 i j) ∧
             cy.px 0 i j = lift2 (fun x y => α * x + β * y) (ay.px 0 i j) (by'.px 0 i j) := by
  obtain ⟨h1, h2, h3, h4, h5⟩ := h
  refine ⟨_, _, _, _, _, _, gradient_with g A hs, gradient_with g B hs, gradient_with g C hs, fun i j => ?_⟩
  obtain ⟨a1, a2, a3, a4⟩ := grad_size A g.dx g.dy
  obtain ⟨b1, b2, b3, b4⟩ := grad_size B g.dx g.dy
  obtain ⟨c1, c2, c3, c4⟩ := grad_size C g.dx g.dy
  simp only [with_px, a1, a2, a3, a4, b1, b2, b3, b4, c1, c2, c3, c4, h1, h2, h3, h4]
  by_cases hin : i < C.ny - 2 + 2 ∧ j < C.nx - 2 + 2
  · simp only [if_pos hin]
    by_cases hint : 1 ≤ i ∧ i + 1 < C.ny ∧ 1 ≤ j ∧ j + 1 < C.nx
    · obtain ⟨i1, i2, j1, j2⟩ := hint
      have hc : ∀ r c, r ≤ i + 1 → c ≤ j + 1 →
          C.get r c = lift2 (fun x y => α * x + β * y) (A.get r c) (B.get r c) :=
        fun r c hr hc => h5 r c (by omega) (by omega)
      constructor
      · rw [gradX_get C _ _ i1 i2 j1 j2, gradX_get A _ _ i1 (by omega) j1 (by omega),
          gradX_get B _ _ i1 (by omega) j1 (by omega),
          hc _ _ (by omega) (by omega), hc _ _ (by omega) (by omega), hc _ _ (by omega) (by omega),
          hc _ _ (by omega) (by omega), hc _ _ (by omega) (by omega), hc _ _ (by omega) (by omega), six_comb]
      · rw [gradY_get C _ _ i1 i2 j1 j2, gradY_get A _ _ i1 (by omega) j1 (by omega),
          gradY_get B _ _ i1 (by omega) j1 (by omega),
          hc _ _ (by omega) (by omega), hc _ _ (by omega) (by omega), hc _ _ (by omega) (by omega),
          hc _ _ (by omega) (by omega), hc _ _ (by omega) (by omega), hc _ _ (by omega) (by omega), six_comb]
    · have hb : i = 0 ∨ C.ny ≤ i + 1 ∨ j = 0 ∨ C.nx ≤ j + 1 := by omega
      rw [(grad_border C g.dx g.dy hb).1, (grad_border C g.dx g.dy hb).2,
        (grad_border A g.dx g.dy (by rw [h1, h2]; exact hb)).1, (grad_border A g.dx g.dy (by rw [h1, h2]; exact hb)).2]
      exact ⟨rfl, rfl⟩
  · simp only [if_neg hin]
    exact ⟨rfl, rfl⟩

/-- **C53.**  Adding a constant to a surface changes its gradient at no cell. -/
theorem C53_offset (g : FGrid K) (hs : g.sx = 0 ∧ g.sy = 0) (k : K) {A C : Arr (Option K)}
    (h1 : A.ny = C.ny) (h2 : A.nx = C.nx)
    (h : ∀ i j, i < C.ny → j < C.nx → C.get i j = (A.get i j).map (· + k)) :
    ∃ ax ay cx cy, gradient (g.with A) 0 = .ok (ax, ay) ∧ gradient (g.with C) 0 = .ok (cx, cy) ∧
      ∀ i j, cx.px 0 i j = ax.px 0 i j ∧ cy.px 0 i j = ay.px 0 i j := by
  refine ⟨_, _, _, _, gradient_with g A hs, gradient_with g C hs, fun i j => ?_⟩
  obtain ⟨a1, a2, a3, a4⟩ := grad_size A g.dx g.dy
  obtain ⟨c1, c2, c3, c4⟩ := grad_size C g.dx g.dy
  simp only [with_px, a1, a2, a3, a4, c1, c2, c3, c4, h1, h2]
  by_cases hin : i < C.ny - 2 + 2 ∧ j < C.nx - 2 + 2
  · simp only [if_pos hin]
    by_cases hint : 1 ≤ i ∧ i + 1 < C.ny ∧ 1 ≤ j ∧ j + 1 < C.nx
    · obtain ⟨i1, i2, j1, j2⟩ := hint
      have hc : ∀ r c, r ≤ i + 1 → c ≤ j + 1 → C.get r c = (A.get r c).map (· + k) :=
        fun r c hr hc => h r c (by omega) (by omega)
      constructor
      · rw [gradX_get C _ _ i1 i2 j1 j2, gradX_get A _ _ i1 (by omega) j1 (by omega),
          hc _ _ (by omega) (by omega), hc _ _ (by omega) (by omega), hc _ _ (by omega) (by omega),
          hc _ _ (by omega) (by omega), hc _ _ (by omega) (by omega), hc _ _ (by omega) (by omega), six_offset]
      · rw [gradY_get C _ _ i1 i2 j1 j2, gradY_get A _ _ i1 (by omega) j1 (by omega),
          hc _ _ (by omega) (by omega), hc _ _ (by omega) (by omega), hc _ _ (by omega) (by omega),
          hc _ _ (by omega) (by omega), hc _ _ (by omega) (by omega), hc _ _ (by omega) (by omega), six_offset]
    · have hb : i = 0 ∨ C.ny ≤ i + 1 ∨ j = 0 ∨ C.nx ≤ j + 1 := by omega
      rw [(grad_border C g.dx g.dy hb).1, (grad_border C g.dx g.dy hb).2,
        (grad_border A g.dx g.dy (by rw [h1, h2]; exact hb)).1, (grad_border A g.dx g.dy (by rw [h1, h2]; exact hb)).2]
      exact ⟨rfl, rfl⟩
  · simp only [if_neg hin]
    exact ⟨trivial, trivial⟩

/-! ### Divergence -/

theorem sliceLen_all (n : Nat) : Py.sliceLen n 0 n = n := by unfold Py.sliceLen Py.sliceStart; simp
theorem sliceLen_tail (n : Nat) : Py.sliceLen n 2 n = n - 2 := by
  unfold Py.sliceLen Py.sliceStart
  rw [if_neg (by omega), if_neg (by omega)]; omega
theorem sliceLen_head (n : Nat) : Py.sliceLen n 0 ((n : Int) - 2) = n - 2 := by
  unfold Py.sliceLen Py.sliceStart
  rw [if_neg (by omega : ¬ ((0 : Int) < 0))]; split_ifs <;> omega

/-- Difference of two values over a distance. -/
def diff (h : K) (a b : Option K) : Option K := (lift2 (· - ·) a b).map (· / h)

/-- `_div` on arrays of one shape with at least two rows and columns. -/
theorem div_ok (U V : Arr (Option K)) (dx dy : K) (h1 : U.ny = V.ny) (h2 : U.nx = V.nx) (hy : 2 ≤ U.ny) (hx : 2 ≤ U.nx) :
    ∃ A, div U V dx dy = .ok A ∧ A.ny = U.ny ∧ A.nx = U.nx ∧
      (∀ i j, 1 ≤ i → i + 1 < U.ny → 1 ≤ j → j + 1 < U.nx →
        A.get i j = lift2 (· + ·) (diff (2 * dx) (U.get i (j + 1)) (U.get i (j - 1)))
          (diff (2 * dy) (V.get (i + 1) j) (V.get (i - 1) j))) ∧
      ∀ i j, i = 0 ∨ U.ny ≤ i + 1 ∨ j = 0 ∨ U.nx ≤ j + 1 → A.get i j = none := by
  unfold div addB
  have e1 : (padCols (mapA (· / (2 * dx)) (zip (· - ·) (U.slice 0 U.ny 2 U.nx) (U.slice 0 U.ny 0 (U.nx - 2))))).ny = U.ny :=
    sliceLen_all U.ny
  have e2 : (padCols (mapA (· / (2 * dx)) (zip (· - ·) (U.slice 0 U.ny 2 U.nx) (U.slice 0 U.ny 0 (U.nx - 2))))).nx = U.nx := by
    show Py.sliceLen U.nx 2 U.nx + 2 = U.nx
    rw [sliceLen_tail]; omega
  have e3 : (padRows (mapA (· / (2 * dy)) (zip (· - ·) (V.slice 2 V.ny 0 V.nx) (V.slice 0 (V.ny - 2) 0 V.nx)))).ny = V.ny := by
    show Py.sliceLen V.ny 2 V.ny + 2 = V.ny
    rw [sliceLen_tail]; omega
  have e4 : (padRows (mapA (· / (2 * dy)) (zip (· - ·) (V.slice 2 V.ny 0 V.nx) (V.slice 0 (V.ny - 2) 0 V.nx)))).nx = V.nx :=
    sliceLen_all V.nx
  have s2y : Py.sliceStart V.ny 2 = 2 := by have := @sliceStart_nat V.ny 2 (by omega); simpa using this
  have s2x : Py.sliceStart U.nx 2 = 2 := by have := @sliceStart_nat U.nx 2 (by omega); simpa using this
  have s0 : ∀ n, Py.sliceStart n 0 = 0 := fun n => by have := @sliceStart_nat n 0 (by omega); simpa using this
  rw [if_pos ⟨Or.inl (by rw [e1, e3, h1]), Or.inl (by rw [e2, e4, h2])⟩]
  refine ⟨_, rfl, ?_, ?_, fun i j i1 i2 j1 j2 => ?_, fun i j hb => ?_⟩
  · simp only [e1, e3]
    rw [if_neg (by omega)]
  · simp only [e2, e4]
    rw [if_neg (by omega)]
  · simp only [e1, e2, e3, e4]
    rw [if_neg (by omega), if_neg (by omega), if_neg (by omega), if_neg (by omega)]
    have g1 : (padCols (mapA (· / (2 * dx)) (zip (· - ·) (U.slice 0 U.ny 2 U.nx) (U.slice 0 U.ny 0 (U.nx - 2))))).get i j =
        diff (2 * dx) (U.get i (j + 1)) (U.get i (j - 1)) := by
      unfold padCols diff
      simp only [mapA, Arr.map, zip, Arr.slice, s0, s2x, sliceLen_tail]
      rw [if_pos (by omega), Nat.zero_add, Nat.zero_add]
      have : 2 + (j - 1) = j + 1 := by omega
      rw [this]
    have g2 : (padRows (mapA (· / (2 * dy)) (zip (· - ·) (V.slice 2 V.ny 0 V.nx) (V.slice 0 (V.ny - 2) 0 V.nx)))).get i j =
        diff (2 * dy) (V.get (i + 1) j) (V.get (i - 1) j) := by
      unfold padRows diff
      simp only [mapA, Arr.map, zip, Arr.slice, s0, s2y, sliceLen_tail]
      rw [if_pos (by omega), Nat.zero_add, Nat.zero_add]
      have : 2 + (i - 1) = i + 1 := by omega
      rw [this]
    rw [g1, g2]
  · simp only [e1, e2, e3, e4]
    rw [if_neg (by omega), if_neg (by omega), if_neg (by omega), if_neg (by omega)]
    rw [lift2_eq_none]
    by_cases hj : j = 0 ∨ U.nx ≤ j + 1
    · left
      refine if_neg ?_
      simp only [mapA, Arr.map, zip, Arr.slice, sliceLen_tail]
      omega
    · right
      refine if_neg ?_
      simp only [mapA, Arr.map, zip, Arr.slice, sliceLen_tail]
      omega

theorem divergence_ok {g : FGrid K} {b0 b1 : Nat} {U V A : Arr (Option K)} (hs : g.sx = 0 ∧ g.sy = 0)
    (hU : g.bands[b0]? = some U) (hV : g.bands[b1]? = some V) (hA : div U V g.dx g.dy = .ok A) :
    divergence g b0 b1 = .ok (g.with A) := by
  unfold divergence
  rw [if_pos hs, hU, hV]
  simp only [hA]

/-- **C53.**  If around an interior cell the first component is the plane `p + q x + s y` and the second
`p' + q' x + s' y`, the divergence there is exactly `q + s'`. -/
theorem C53_divergence_plane [CharZero K] {g : FGrid K} {b0 b1 : Nat} {U V : Arr (Option K)}
    (hU : g.bands[b0]? = some U) (hV : g.bands[b1]? = some V) (h1 : U.ny = V.ny) (h2 : U.nx = V.nx)
    (hs : g.sx = 0 ∧ g.sy = 0) (hdx : g.dx ≠ 0) (hdy : g.dy ≠ 0) (p q s p' q' s' : K) {i j : Nat}
    (hi : 1 ≤ i) (hi' : i + 1 < U.ny) (hj : 1 ≤ j) (hj' : j + 1 < U.nx)
    (hu : ∀ c, c = j - 1 ∨ c = j + 1 → U.get i c = some (p + q * centreX g c + s * centreY g i))
    (hv : ∀ r, r = i - 1 ∨ r = i + 1 → V.get r j = some (p' + q' * centreX g j + s' * centreY g r)) :
    ∃ d, divergence g b0 b1 = .ok d ∧ d.px 0 i j = some (q + s') := by
  obtain ⟨A, hA, n1, n2, hget, _⟩ := div_ok U V g.dx g.dy h1 h2 (by omega) (by omega)
  refine ⟨_, divergence_ok hs hU hV hA, ?_⟩
  rw [with_px, if_pos (by omega), hget i j hi hi' hj hj', hu _ (Or.inl rfl), hu _ (Or.inr rfl), hv _ (Or.inl rfl),
    hv _ (Or.inr rfl)]
  simp only [diff, lift2, Option.map]
  congr 1
  have ej : ((j + 1 : Nat) : K) = (j - 1 : Nat) + 2 := by
    have : j + 1 = (j - 1) + 2 := by omega
    rw [this]; push_cast; rfl
  have ei : ((i + 1 : Nat) : K) = (i - 1 : Nat) + 2 := by
    have : i + 1 = (i - 1) + 2 := by omega
    rw [this]; push_cast; rfl
  unfold centreX centreY
  rw [ej, ei]
  field_simp
  ring

/-- **C53.**  Adding a constant to each component changes the divergence at no cell. -/
theorem C53_divergence_offset (g : FGrid K) (hs : g.sx = 0 ∧ g.sy = 0) (k l : K) {U V U' V' : Arr (Option K)}
    (hy : 2 ≤ U.ny) (hx : 2 ≤ U.nx)
    (h1 : V.ny = U.ny ∧ U'.ny = U.ny ∧ V'.ny = U.ny) (h2 : V.nx = U.nx ∧ U'.nx = U.nx ∧ V'.nx = U.nx)
    (hu : ∀ i j, i < U.ny → j < U.nx → U'.get i j = (U.get i j).map (· + k))
    (hv : ∀ i j, i < U.ny → j < U.nx → V'.get i j = (V.get i j).map (· + l)) :
    ∃ d d', divergence { g with bands := [U, V] } 0 1 = .ok d ∧ divergence { g with bands := [U', V'] } 0 1 = .ok d' ∧
      ∀ i j, d'.px 0 i j = d.px 0 i j := by
  obtain ⟨A, hA, n1, n2, hget, hbor⟩ := div_ok U V g.dx g.dy h1.1.symm h2.1.symm hy hx
  obtain ⟨A', hA', n1', n2', hget', hbor'⟩ := div_ok U' V' g.dx g.dy (by rw [h1.2.1, h1.2.2]) (by rw [h2.2.1, h2.2.2])
    (by omega) (by omega)
  refine ⟨_, _, divergence_ok (g := { g with bands := [U, V] }) hs rfl rfl hA,
    divergence_ok (g := { g with bands := [U', V'] }) hs rfl rfl hA', fun i j => ?_⟩
  have key : ∀ (h m : K) (a b : Option K), diff h (a.map (· + m)) (b.map (· + m)) = diff h a b := by
    intro h m a b
    cases a <;> cases b <;> simp [diff, lift2]
  rw [with_px, with_px, n1, n2, n1', n2', h1.2.1, h2.2.1]
  by_cases hin : i < U.ny ∧ j < U.nx
  · rw [if_pos hin, if_pos hin]
    by_cases hint : 1 ≤ i ∧ i + 1 < U.ny ∧ 1 ≤ j ∧ j + 1 < U.nx
    · obtain ⟨i1, i2, j1, j2⟩ := hint
      rw [hget i j i1 i2 j1 j2, hget' i j i1 (by omega) j1 (by omega), hu _ _ (by omega) (by omega),
        hu _ _ (by omega) (by omega), hv _ _ (by omega) (by omega), hv _ _ (by omega) (by omega), key, key]
    · rw [hbor i j (by omega), hbor' i j (by omega)]
  · rw [if_neg hin, if_neg hin]

/-- **C53.**  The divergence of a combination of fields is the combination of the divergences, at every cell. -/
theorem C53_divergence_linear (g : FGrid K) (hs : g.sx = 0 ∧ g.sy = 0) (α β : K) {U V U' V' U'' V'' : Arr (Option K)}
    (hy : 2 ≤ U''.ny) (hx : 2 ≤ U''.nx) (hyv : V''.ny = U''.ny) (hxv : V''.nx = U''.nx)
    (hu : IsComb α β U U' U'') (hv : IsComb α β V V' V'') :
    ∃ d d' d'', divergence { g with bands := [U, V] } 0 1 = .ok d ∧ divergence { g with bands := [U', V'] } 0 1 = .ok d' ∧
      divergence { g with bands := [U'', V''] } 0 1 = .ok d'' ∧
      ∀ i j, d''.px 0 i j = lift2 (fun x y => α * x + β * y) (d.px 0 i j) (d'.px 0 i j) := by
  obtain ⟨u1, u2, u3, u4, u5⟩ := hu
  obtain ⟨v1, v2, v3, v4, v5⟩ := hv
  obtain ⟨A, hA, n1, n2, hget, hbor⟩ := div_ok U V g.dx g.dy (by omega) (by omega) (by omega) (by omega)
  obtain ⟨A', hA', n1', n2', hget', hbor'⟩ := div_ok U' V' g.dx g.dy (by omega) (by omega) (by omega) (by omega)
  obtain ⟨A'', hA'', n1'', n2'', hget'', hbor''⟩ := div_ok U'' V'' g.dx g.dy (by omega) (by omega) (by omega) (by omega)
  refine ⟨_, _, _, divergence_ok (g := { g with bands := [U, V] }) hs rfl rfl hA,
    divergence_ok (g := { g with bands := [U', V'] }) hs rfl rfl hA',
    divergence_ok (g := { g with bands := [U'', V''] }) hs rfl rfl hA'', fun i j => ?_⟩
  have key : ∀ (h : K) (a b a' b' : Option K),
      diff h (lift2 (fun x y => α * x + β * y) a a') (lift2 (fun x y => α * x + β * y) b b') =
      lift2 (fun x y => α * x + β * y) (diff h a b) (diff h a' b') := by
    intro h a b a' b'
    unfold diff
    rw [lift2_comb_sub, map_comb_div]
  rw [with_px, with_px, with_px, n1, n2, n1', n2', n1'', n2'', u1, u2, u3, u4]
  by_cases hin : i < U''.ny ∧ j < U''.nx
  · rw [if_pos hin, if_pos hin, if_pos hin]
    by_cases hint : 1 ≤ i ∧ i + 1 < U''.ny ∧ 1 ≤ j ∧ j + 1 < U''.nx
    · obtain ⟨i1, i2, j1, j2⟩ := hint
      rw [hget i j i1 (by omega) j1 (by omega), hget' i j i1 (by omega) j1 (by omega), hget'' i j i1 i2 j1 j2,
        u5 _ _ (by omega) (by omega), u5 _ _ (by omega) (by omega), v5 _ _ (by omega) (by omega),
        v5 _ _ (by omega) (by omega), key, key, lift2_comb_add]
    · rw [hbor i j (by omega), hbor' i j (by omega), hbor'' i j (by omega)]
      rfl
  · rw [if_neg hin, if_neg hin, if_neg hin]
    rfl

/-! ### C78: missing values -/

/-- Spec: band `k` has a number at row `i`, column `j`, and no band has the nodata value there. -/
def FGrid.Avail (g : FGrid K) (k i j : Nat) : Prop := g.IsData i j ∧ ∃ b v, g.bands[k]? = some b ∧ b.get i j = some v

/-- **C78.**  The components of the gradient at an interior cell are missing exactly when one of the six cells they are
computed from is missing; at the border they always are. -/
theorem C78_gradient {g : FGrid K} {k : Nat} {b : Arr (Option K)} (hb : g.bands[k]? = some b) (hs : g.sx = 0 ∧ g.sy = 0) :
    ∃ gx gy, gradient g k = .ok (gx, gy) ∧
      (∀ i j, 1 ≤ i → i + 1 < b.ny → 1 ≤ j → j + 1 < b.nx →
        (gx.px 0 i j = none ↔ ∃ r c, (r = i - 1 ∨ r = i ∨ r = i + 1) ∧ (c = j - 1 ∨ c = j + 1) ∧ ¬ g.Avail k r c) ∧
        (gy.px 0 i j = none ↔ ∃ r c, (r = i - 1 ∨ r = i + 1) ∧ (c = j - 1 ∨ c = j ∨ c = j + 1) ∧ ¬ g.Avail k r c)) ∧
      ∀ i j, i = 0 ∨ b.ny ≤ i + 1 ∨ j = 0 ∨ b.nx ≤ j + 1 → gx.px 0 i j = none ∧ gy.px 0 i j = none := by
  obtain ⟨D, hD, hny, hnx, hdat, hnod⟩ := masked_ok hb
  have hav : ∀ r c, D.get r c = none ↔ ¬ g.Avail k r c := by
    intro r c
    by_cases h : g.IsData r c
    · rw [hdat r c h]
      constructor
      · rintro hn ⟨_, b', v, hb', hv⟩
        rw [hb] at hb'; cases hb'
        rw [hn] at hv; cases hv
      · intro hn
        cases hv : b.get r c with
        | none => rfl
        | some v => exact absurd ⟨h, b, v, hb, hv⟩ hn
    · rw [hnod r c h]
      exact ⟨fun _ ha => h ha.1, fun _ => rfl⟩
  obtain ⟨s1, s2, s3, s4⟩ := grad_size D g.dx g.dy
  refine ⟨_, _, gradient_ok hs hD, fun i j i1 i2 j1 j2 => ⟨?_, ?_⟩, fun i j hbor => ?_⟩
  · rw [with_px, if_pos (by omega), gradX_get D _ _ i1 (by omega) j1 (by omega), six_none]
    simp only [hav]
    constructor
    · rintro (h | h | h | h | h | h)
      · exact ⟨i, j + 1, by omega, by omega, h⟩
      · exact ⟨i - 1, j + 1, by omega, by omega, h⟩
      · exact ⟨i + 1, j + 1, by omega, by omega, h⟩
      · exact ⟨i, j - 1, by omega, by omega, h⟩
      · exact ⟨i - 1, j - 1, by omega, by omega, h⟩
      · exact ⟨i + 1, j - 1, by omega, by omega, h⟩
    · rintro ⟨r, c, rfl | rfl | rfl, rfl | rfl, h⟩ <;> simp [h]
  · rw [with_px, if_pos (by omega), gradY_get D _ _ i1 (by omega) j1 (by omega), six_none]
    simp only [hav]
    constructor
    · rintro (h | h | h | h | h | h)
      · exact ⟨i + 1, j, by omega, by omega, h⟩
      · exact ⟨i + 1, j + 1, by omega, by omega, h⟩
      · exact ⟨i + 1, j - 1, by omega, by omega, h⟩
      · exact ⟨i - 1, j, by omega, by omega, h⟩
      · exact ⟨i - 1, j - 1, by omega, by omega, h⟩
      · exact ⟨i - 1, j + 1, by omega, by omega, h⟩
    · rintro ⟨r, c, rfl | rfl, rfl | rfl | rfl, h⟩ <;> simp [h]
  · obtain ⟨b1, b2⟩ := grad_border D g.dx g.dy (i := i) (j := j) (by omega)
    rw [with_px, with_px, b1, b2]
    exact ⟨ite_self _, ite_self _⟩

/-- **C78 (partial).**  The divergence at an interior cell is missing exactly when one of the four neighbouring values is
NaN: if the nodata value is NaN, as the property asks. -/
theorem C78_divergence_partial {g : FGrid K} {b0 b1 : Nat} {U V : Arr (Option K)}
    (hU : g.bands[b0]? = some U) (hV : g.bands[b1]? = some V) (h1 : U.ny = V.ny) (h2 : U.nx = V.nx)
    (hs : g.sx = 0 ∧ g.sy = 0) (hy : 2 ≤ U.ny) (hx : 2 ≤ U.nx) :
    ∃ d, divergence g b0 b1 = .ok d ∧
      (∀ i j, 1 ≤ i → i + 1 < U.ny → 1 ≤ j → j + 1 < U.nx →
        (d.px 0 i j = none ↔ U.get i (j + 1) = none ∨ U.get i (j - 1) = none ∨ V.get (i + 1) j = none ∨
          V.get (i - 1) j = none)) ∧
      ∀ i j, i = 0 ∨ U.ny ≤ i + 1 ∨ j = 0 ∨ U.nx ≤ j + 1 → d.px 0 i j = none := by
  obtain ⟨A, hA, n1, n2, hget, hbor⟩ := div_ok U V g.dx g.dy h1 h2 hy hx
  refine ⟨_, divergence_ok hs hU hV hA, fun i j i1 i2 j1 j2 => ?_, fun i j hb => ?_⟩
  · rw [with_px, if_pos (by omega), hget i j i1 i2 j1 j2, lift2_eq_none]
    unfold diff
    rw [Option.map_eq_none_iff, Option.map_eq_none_iff, lift2_eq_none, lift2_eq_none, or_assoc]
  · rw [with_px, hbor i j hb]
    exact ite_self _

end

/-- An example grid: three by three, nodata value -9999, which the first component has east of the middle. -/
def holed : FGrid ℚ :=
  ⟨0, 0, 1, 1, 0, 0, [⟨3, 3, fun i j => if i = 1 ∧ j = 2 then some (-9999) else some 1⟩, ⟨3, 3, fun _ _ => some 0⟩], some (-9999)⟩

/-- **C78 is violated by the divergence**: the nodata value is taken for a number. -/
theorem C78_violated_divergence : ∃ (g : FGrid ℚ) (d : FGrid ℚ), divergence g 0 1 = .ok d ∧ ¬ g.IsData 1 2 ∧
    d.px 0 1 1 = some (-5000) := by
  refine ⟨holed, _, rfl, fun h => ?_, by decide +kernel⟩
  exact h _ (List.mem_cons_self) rfl

/-- The example meets the hypotheses of the theorems above. -/
example : ∃ gx gy, gradient holed 1 = .ok (gx, gy) ∧ gx.px 0 1 1 = none ∧ gy.px 0 1 1 = some 0 := by
  refine ⟨_, _, rfl, by decide +kernel, by decide +kernel⟩

/-- A plane of slope 2 east and -3 north, four cells by five, and its shift by 10. -/
def sloped (k : ℚ) : Arr (Option ℚ) := ⟨4, 5, fun r c => some (1 + k + 2 * (3 + ((c : ℚ) + 1 / 2) * 2) + (-3) * (7 + ((r : ℚ) + 1 / 2) * (-5)))⟩
def slopedGrid : FGrid ℚ := ⟨3, 7, 2, -5, 0, 0, [sloped 0, sloped 10], none⟩

/-- The hypotheses of C53 and C78 are met by it. -/
example : ∃ gx gy, gradient slopedGrid 1 = .ok (gx, gy) ∧ gx.px 0 1 2 = some 2 ∧ gy.px 0 1 2 = some (-3) := by
  refine C53_plane (g := slopedGrid) (b := sloped 10) rfl ⟨rfl, rfl⟩ (by norm_num [slopedGrid]) (by norm_num [slopedGrid]) 11 2 (-3) (by decide) (by decide)
    (by decide) (by decide) fun r c _ _ _ _ => ⟨fun b hb => ?_, ?_⟩
  · simp only [slopedGrid, List.mem_cons, List.not_mem_nil, or_false] at hb ⊢
    rcases hb with rfl | rfl <;> simp [sloped]
  · simp only [sloped, slopedGrid, centreX, centreY]
    norm_num
example : IsComb 2 (-1) (sloped 3) (sloped 1) (sloped 5) := by
  refine ⟨rfl, rfl, rfl, rfl, fun i j _ _ => ?_⟩
  simp only [sloped, lift2]
  congr 1
  ring
example := C53_linear slopedGrid ⟨rfl, rfl⟩ 1 0 (A := sloped 3) (B := sloped 1) (C := sloped 3) ⟨rfl, rfl, rfl, rfl, fun i j _ _ => by simp [sloped, lift2]⟩
example := C53_offset slopedGrid ⟨rfl, rfl⟩ 7 (A := sloped 0) (C := sloped 7) rfl rfl fun i j _ _ => by
  simp only [sloped, Option.map_some]; congr 1; ring
example : ∃ d, divergence slopedGrid 0 1 = .ok d ∧ d.px 0 2 2 = some (2 + -3) := by
  refine C53_divergence_plane (g := slopedGrid) (U := sloped 0) (V := sloped 10) rfl rfl rfl rfl ⟨rfl, rfl⟩ (by norm_num [slopedGrid]) (by norm_num [slopedGrid])
    1 2 (-3) 11 2 (-3) (by decide) (by decide) (by decide) (by decide) (fun c _ => ?_) (fun r _ => ?_) <;>
  · simp only [sloped, slopedGrid, centreX, centreY]
    norm_num
example := C78_gradient (g := slopedGrid) (k := 1) (b := sloped 10) rfl ⟨rfl, rfl⟩
example := C78_divergence_partial (g := slopedGrid) (b0 := 0) (b1 := 1) rfl rfl rfl rfl ⟨rfl, rfl⟩ (by decide) (by decide)

end Karta.Surface
