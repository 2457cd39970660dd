import Verif.Grid.MaskProps
import Verif.Vec.PolygonProps

/-!
Property C66 for polygons of any shape: which cells of a grid with square cells a polygon covers when its
vertices are corners of cells.
-/

namespace Karta.Grid
open Karta Karta.Band Karta.Band.Spec Karta.Band.Indexer Karta.Py Karta.Vec

variable {α : Type _}

/-! ### Specification -/

/-- Spec: a vertex as a point of the plane. -/
def toPt (p : ℚ × ℚ) : Pt := ⟨p.1, p.2⟩

/-- Spec: the point is the corner of a cell (of the grid or of its continuation in all directions). -/
def AtCorner (T : Xform) (p : ℚ × ℚ) : Prop := ∃ i j : Int, p = (T.x0 + j * T.dx, T.y0 + i * T.dy)

/-- Spec: the middle of the lower side of cell `(r, c)`. -/
def footOf (T : Xform) (r c : Nat) : Pt := ⟨T.x0 + (c + 1 / 2) * T.dx, T.y0 + r * T.dy⟩

/-- Spec: the point is on the side from `a` to `b`, which is not horizontal. -/
def OnSide (a b p : Pt) : Prop := a.y ≠ b.y ∧ leftOf a b p = 0 ∧ min a.y b.y ≤ p.y ∧ p.y ≤ max a.y b.y

/-! ### Lemmas -/

/-- Whether a side starts below the height `y` and ends above it. -/
def rowCross (a b : Pt) (y : ℚ) : Int := (if y < b.y then 1 else 0) - (if y < a.y then 1 else 0)

theorem contrib_up {T : Xform} {i0 j0 i1 j1 : Int} (hd : 0 < T.dx) (hsq : T.dy = T.dx) (hsx : T.sx = 0) (hsy : T.sy = 0)
    (h : i0 < i1) (r c : Nat)
    (hoff : ¬ OnSide (toPt (T.x0 + j0 * T.dx, T.y0 + i0 * T.dy)) (toPt (T.x0 + j1 * T.dx, T.y0 + i1 * T.dy)) (footOf T r c)) :
    contrib T (T.x0 + j0 * T.dx, T.y0 + i0 * T.dy) (T.x0 + j1 * T.dx, T.y0 + i1 * T.dy) r c =
      rowCross (toPt (T.x0 + j0 * T.dx, T.y0 + i0 * T.dy)) (toPt (T.x0 + j1 * T.dx, T.y0 + i1 * T.dy)) (footOf T r c).y -
      windStep (footOf T r c) (toPt (T.x0 + j0 * T.dx, T.y0 + i0 * T.dy), toPt (T.x0 + j1 * T.dx, T.y0 + i1 * T.dy)) := by
  have hh : (i0 : ℚ) < i1 := by exact_mod_cast h
  have hy : T.y0 + i0 * T.dy < T.y0 + i1 * T.dy := by rw [hsq]; nlinarith
  have v : ∀ i j : Int, vertexIdx T (T.x0 + j * T.dx, T.y0 + i * T.dy) = (i, j) := by
    intro i j
    rw [vertexIdx_unskewed hsx hsy]
    have e1 : (T.y0 + i * T.dy - T.y0) / T.dy = i := by rw [add_sub_cancel_left, mul_div_assoc, div_self (by rw [hsq]; exact hd.ne'), mul_one]
    have e2 : (T.x0 + j * T.dx - T.x0) / T.dx = j := by rw [add_sub_cancel_left, mul_div_assoc, div_self hd.ne', mul_one]
    simp only [e1, e2, rint_int]
  have hs : (T.x0 + j1 * T.dx - (T.x0 + j0 * T.dx)) / (T.y0 + i1 * T.dy - (T.y0 + i0 * T.dy)) = ((j1 : ℚ) - j0) / (i1 - i0) := by
    rw [hsq, show T.x0 + j1 * T.dx - (T.x0 + j0 * T.dx) = (j1 - j0) * T.dx by ring,
      show T.y0 + i1 * T.dx - (T.y0 + i0 * T.dx) = (i1 - i0) * T.dx by ring, mul_div_mul_right _ _ hd.ne']
  unfold contrib
  simp only [v, hs]
  rw [if_pos hy]
  unfold windStep rowCross footOf toPt
  simp only
  have g1 : T.y0 + i0 * T.dy ≤ T.y0 + r * T.dy ↔ i0 ≤ (r : Int) := by
    rw [hsq]
    constructor
    · intro k; have : (i0 : ℚ) ≤ ((r : Int) : ℚ) := by push_cast; nlinarith
      exact_mod_cast this
    · intro k; have : (i0 : ℚ) ≤ ((r : Int) : ℚ) := by exact_mod_cast k
      push_cast at this; nlinarith
  have g2 : T.y0 + r * T.dy < T.y0 + i1 * T.dy ↔ (r : Int) < i1 := by
    rw [hsq]
    constructor
    · intro k; have : ((r : Int) : ℚ) < (i1 : ℚ) := by push_cast; nlinarith
      exact_mod_cast this
    · intro k; have : ((r : Int) : ℚ) < (i1 : ℚ) := by exact_mod_cast k
      push_cast at this; nlinarith
  have g3 : T.y0 + r * T.dy < T.y0 + i0 * T.dy ↔ (r : Int) < i0 := by rw [← not_le, g1, not_le]
  have g4 : T.y0 + i1 * T.dy ≤ T.y0 + r * T.dy ↔ i1 ≤ (r : Int) := by rw [← not_lt, g2, not_lt]
  simp only [g1, g2, g3, g4, gt_iff_lt, ge_iff_le]
  by_cases hr : i0 ≤ (r : Int) ∧ (r : Int) < i1
  · obtain ⟨hr1, hr2⟩ := hr
    rw [if_pos (⟨hr1, hr2⟩ : i0 ≤ (r : Int) ∧ (r : Int) < i1), if_pos hr2, if_neg (by omega : ¬ (r : Int) < i0)]
    have key : isleft (footOf T r c) (toPt (T.x0 + j0 * T.dx, T.y0 + i0 * T.dy)) (toPt (T.x0 + j1 * T.dx, T.y0 + i1 * T.dy)) =
        T.dx * T.dx * (i1 - i0) * ((((r : Int) - i0 : Int) : ℚ) * (((j1 : ℚ) - j0) / (i1 - i0)) + j0 - (c + 1 / 2)) := by
      unfold isleft footOf toPt
      simp only
      have hne : (i1 : ℚ) - i0 ≠ 0 := by linarith
      rw [hsq]
      push_cast
      field_simp
      ring
    have hpos : 0 < T.dx * T.dx * ((i1 : ℚ) - i0) := mul_pos (mul_pos hd hd) (by linarith)
    generalize hv : (((r : Int) - i0 : Int) : ℚ) * (((j1 : ℚ) - j0) / (i1 - i0)) + j0 = v at key ⊢
    have hne : v ≠ c + 1 / 2 := by
      intro hvc
      apply hoff
      refine ⟨hy.ne, ?_, ?_, ?_⟩
      · rw [← isleft_eq, key, hvc]; ring
      · refine le_trans (min_le_left _ _) ?_
        exact g1.2 hr1
      · refine le_trans ?_ (le_max_right _ _)
        exact (g2.2 hr2).le
    unfold footOf toPt at key
    simp only at key
    rw [key]
    by_cases hlt : v < c + 1 / 2
    · rw [if_pos ⟨hr1, hr2, (rint_le_iff hne).2 hlt⟩, if_neg (by
        rw [not_lt]; exact mul_nonpos_of_nonneg_of_nonpos hpos.le (by linarith))]
      norm_num
    · have hgt : (c : ℚ) + 1 / 2 < v := lt_of_le_of_ne (not_lt.1 hlt) hne.symm
      rw [if_neg (fun k => hlt ((rint_le_iff hne).1 k.2.2)), if_pos (mul_pos hpos (by linarith))]
      norm_num
  · rw [if_neg hr, if_neg (fun k => hr ⟨k.1, k.2.1⟩), if_neg (by omega : ¬ ((r : Int) < i0 ∧ i1 ≤ (r : Int)))]
    by_cases h1 : (r : Int) < i1
    · rw [if_pos h1, if_pos (by omega)]; norm_num
    · rw [if_neg h1, if_neg (by omega)]; norm_num

theorem rowCross_swap (a b : Pt) (y : ℚ) : rowCross b a y = - rowCross a b y := by unfold rowCross; ring

theorem OnSide.swap {a b p : Pt} (h : OnSide b a p) : OnSide a b p := by
  obtain ⟨h0, h1, h2, h3⟩ := h
  refine ⟨h0.symm, ?_, by rwa [min_comm] at h2, by rwa [max_comm] at h3⟩
  unfold leftOf at h1 ⊢
  linarith

/-- A side adds to the counter what it adds to the winding number of the foot of the cell, up to the sign and
up to a term that cancels over the polygon. -/
theorem contrib_corner {T : Xform} (hd : 0 < T.dx) (hsq : T.dy = T.dx) (hsx : T.sx = 0) (hsy : T.sy = 0)
    {p q : ℚ × ℚ} (hp : AtCorner T p) (hq : AtCorner T q) (r c : Nat) (hoff : ¬ OnSide (toPt p) (toPt q) (footOf T r c)) :
    contrib T p q r c = rowCross (toPt p) (toPt q) (footOf T r c).y - windStep (footOf T r c) (toPt p, toPt q) := by
  obtain ⟨i0, j0, rfl⟩ := hp
  obtain ⟨i1, j1, rfl⟩ := hq
  rcases lt_trichotomy i0 i1 with h | h | h
  · exact contrib_up hd hsq hsx hsy h r c hoff
  · subst h
    unfold contrib windStep rowCross toPt
    simp only [lt_irrefl, if_false, sub_self]
    rw [if_neg (by intro k; linarith [k.1, k.2]), if_neg (by intro k; linarith [k.1, k.2])]
    rfl
  · rw [contrib_swap, contrib_up hd hsq hsx hsy h r c (fun k => hoff k.swap), rowCross_swap, windStep_swap]
    ring

theorem ringEdges_cyc (pts : List (ℚ × ℚ)) :
    ringEdges (pts.map toPt) = (List.range pts.length).map fun e => (toPt (cyc pts e), toPt (cyc pts (e + 1))) := by
  unfold ringEdges
  apply List.ext_getElem
  · simp
  · intro k h1 h2
    have hk : k < pts.length := by simpa using h2
    have hk2 : (k + 1) % pts.length < pts.length := Nat.mod_lt _ (by omega)
    simp only [List.getElem_zip, List.getElem_map, List.getElem_range, List.getElem_rotate, List.length_map, cyc,
      Nat.mod_eq_of_lt hk, List.getElem?_eq_getElem hk, List.getElem?_eq_getElem hk2, Option.getD_some]

theorem foldl_sum {β : Type} (f : β → Int) (l : List β) (z : Int) : l.foldl (fun a e => a + f e) z = z + (l.map f).sum := by
  induction l generalizing z with
  | nil => simp
  | cons a l ih => rw [List.foldl_cons, ih, List.map_cons, List.sum_cons]; ring

theorem windCount_cyc (pt : Pt) (pts : List (ℚ × ℚ)) :
    windCount pt (pts.map toPt) = ∑ e ∈ Finset.range pts.length, windStep pt (toPt (cyc pts e), toPt (cyc pts (e + 1))) := by
  unfold windCount
  rw [foldl_sum, ringEdges_cyc, List.map_map, zero_add, list_sum_range]
  rfl

theorem rowCross_sum (y : ℚ) (pts : List (ℚ × ℚ)) :
    ∑ e ∈ Finset.range pts.length, rowCross (toPt (cyc pts e)) (toPt (cyc pts (e + 1))) y = 0 := by
  unfold rowCross
  rw [Finset.sum_range_sub (fun e => if y < (toPt (cyc pts e)).y then (1 : Int) else 0)]
  have := cyc_add pts 0
  rw [zero_add] at this
  rw [this, sub_self]

theorem total_corner {T : Xform} (hd : 0 < T.dx) (hsq : T.dy = T.dx) (hsx : T.sx = 0) (hsy : T.sy = 0)
    {pts : List (ℚ × ℚ)} (hp : ∀ p ∈ pts, AtCorner T p) (r c : Nat)
    (hoff : ∀ a b, IsEdge (pts.map toPt) a b → ¬ OnSide a b (footOf T r c)) :
    total T pts r c = - windCount (footOf T r c) (pts.map toPt) := by
  by_cases hne : pts = []
  · subst hne; rfl
  unfold total
  rw [windCount_cyc, ← zero_sub, ← rowCross_sum (footOf T r c).y pts, ← Finset.sum_sub_distrib]
  apply Finset.sum_congr rfl
  intro e he
  apply contrib_corner hd hsq hsx hsy (hp _ (cyc_mem hne _)) (hp _ (cyc_mem hne _))
  apply hoff
  rw [← mem_ringEdges, ringEdges_cyc]
  exact List.mem_map.2 ⟨e, List.mem_range.2 (Finset.mem_range.1 he), rfl⟩

theorem corner_mask {T : Xform} (hd : 0 < T.dx) (hsq : T.dy = T.dx) (hsx : T.sx = 0) (hsy : T.sy = 0) (ny nx : Nat)
    {pts : List (ℚ × ℚ)} (hne : pts ≠ []) (hp : ∀ p ∈ pts, AtCorner T p) :
    ∃ M, maskPoly T ny nx pts = .ok M ∧ M.ny = ny ∧ M.nx = nx ∧ ∀ r c : Nat, r < ny → c < nx →
      (∀ a b, IsEdge (pts.map toPt) a b → ¬ OnSide a b (footOf T r c)) →
      M.get r c = decide (windCount (footOf T r c) (pts.map toPt) % 256 ≠ 0) := by
  have hdy : 0 < T.dy := by rw [hsq]; exact hd
  have hU := northUp_pos hd hdy ny nx
  obtain ⟨-, a2⟩ := maskPoly_spec T ny nx pts hne (by rw [hU]; exact solid_pos hd hdy hsx)
  have hs : Safe T pts := Or.inl hsy
  obtain ⟨M, e1, e2, e3, e4⟩ := a2 (by rintro ⟨e, -, h⟩; exact hs.not_raises ny nx e h)
  refine ⟨M, e1, e2, e3, ?_⟩
  intro r c hr hc hoff
  rw [e4 r c hr hc, hU, total_corner hd hsq hsx hsy hp r c hoff]
  congr 1
  rw [eq_iff_iff, ne_eq, ne_eq, ← Int.dvd_iff_emod_eq_zero, ← Int.dvd_iff_emod_eq_zero, dvd_neg]

/-- C66, for polygons of any shape whose vertices are corners of cells, on a grid with square cells, positive
spacing and no skew: masking keeps exactly the pixels the foot of whose cell (the middle of its lower side) is
contained in one of the polygons, as decided by `Polygon.contains`, provided the foot is on no side that
is not horizontal and no polygon winds round it 256 times or more.  So the region kept is that of the polygons moved up by half a cell;
with respect to the centres of cells the mask is wrong (`C66_violated_slanting_side`). -/
theorem C66_corner_polygons_partial {g : RGrid α} {H W : Nat} {Ps : List (Int → Int → α)} (hg : g.Holds H W Ps)
    (zero garb : α) (hd : 0 < g.t.dx) (hsq : g.t.dy = g.t.dx) (hsx : g.t.sx = 0) (hsy : g.t.sy = 0)
    (polys : List (List (ℚ × ℚ))) (hpolys : ∀ pts ∈ polys, pts ≠ [] ∧ ∀ p ∈ pts, AtCorner g.t p) :
    ∃ g' Ps', g.maskByPoly zero garb polys = .ok g' ∧ g'.t = g.t ∧ g'.nodata = g.nodata ∧
      g'.Holds H W Ps' ∧ Ps'.length = Ps.length ∧
      ∀ (k : Nat) P P', Ps[k]? = some P → Ps'[k]? = some P' → ∀ y x : Nat, y < H → x < W →
        (∀ pts ∈ polys, (∀ a b, IsEdge (pts.map toPt) a b → ¬ OnSide a b (footOf g.t y x)) ∧
          |windCount (footOf g.t y x) (pts.map toPt)| < 256) →
        ((∃ pts ∈ polys, (Poly.mk (pts.map toPt) []).contains (footOf g.t y x) = true) → P' y x = P y x) ∧
        (¬ (∃ pts ∈ polys, (Poly.mk (pts.map toPt) []).contains (footOf g.t y x) = true) → P' y x = g.nodata) := by
  have hm : ∀ pts ∈ polys, _ := fun pts hq => corner_mask hd hsq hsx hsy H W (hpolys pts hq).1 (hpolys pts hq).2
  obtain ⟨g', Ps', e1, e2, e3, e4, e5, e6⟩ := C66_keeps_or_erases hg zero garb polys (by
    intro p hp
    obtain ⟨M, h, -⟩ := hm p hp
    exact ⟨M, h⟩)
  refine ⟨g', Ps', e1, e2, e3, e4, e5, ?_⟩
  intro k P P' hP hP' y x hy hx hoff
  have hcell : ∀ pts ∈ polys, CoversCell g.t H W pts y x ↔ (Poly.mk (pts.map toPt) []).contains (footOf g.t y x) = true := by
    intro pts hq
    obtain ⟨M, h, -, -, h4⟩ := hm pts hq
    obtain ⟨o1, o2⟩ := hoff pts hq
    unfold CoversCell
    rw [maskCell_ok h, Except.ok.injEq, h4 y x hy hx o1]
    simp only [Poly.contains, Poly.anyContains, ringContains, Bool.not_false, Bool.and_true, decide_eq_true_eq]
    generalize windCount (footOf g.t y x) (pts.map toPt) = w at o2
    rw [abs_lt] at o2
    omega
  have hiff : (∃ p ∈ polys, CoversCell g.t H W p y x) ↔
      ∃ pts ∈ polys, (Poly.mk (pts.map toPt) []).contains (footOf g.t y x) = true := by
    constructor
    · rintro ⟨p, hp, hc⟩; exact ⟨p, hp, (hcell p hp).1 hc⟩
    · rintro ⟨p, hp, hc⟩; exact ⟨p, hp, (hcell p hp).2 hc⟩
  rw [← hiff]
  exact e6 k P P' hP hP' y x hy hx

/-- C66 is violated for slanting sides, even with square cells and vertices at corners of cells: the centre of
the cell in row 0 and column 3 is outside the first triangle, and the cell is kept; the centre of the cell in
row 0 and column 0 is inside the second triangle, and the cell is erased. -/
theorem C66_violated_slanting_side :
    ((Poly.mk [⟨0, 0⟩, ⟨4, 0⟩, ⟨0, 2⟩] []).contains ⟨7 / 2, 1 / 2⟩ = false ∧
      CoversCell ⟨0, 0, 1, 1, 0, 0⟩ 4 4 [(0, 0), (4, 0), (0, 2)] 0 3) ∧
    ((Poly.mk [⟨0, 2⟩, ⟨0, 0⟩, ⟨4, 2⟩] []).contains ⟨1 / 2, 1 / 2⟩ = true ∧
      ¬ CoversCell ⟨0, 0, 1, 1, 0, 0⟩ 4 4 [(0, 2), (0, 0), (4, 2)] 0 0) := by
  unfold CoversCell
  refine ⟨⟨?_, ?_⟩, ?_, ?_⟩ <;> decide +kernel

/-- Non-vacuity of C66 for polygons at corners of cells: the triangle has its vertices at corners, the
foot of the cell in row 1 and column 1 is inside and on the line of no side, that of its neighbour outside. -/
example : (∀ p ∈ [((0 : ℚ), (0 : ℚ)), (4, 0), (4, 4)], AtCorner ⟨0, 0, 2, 2, 0, 0⟩ p) ∧
    (Poly.mk ([((0 : ℚ), (0 : ℚ)), (4, 0), (4, 4)].map toPt) []).contains (footOf ⟨0, 0, 2, 2, 0, 0⟩ 1 1) = true ∧
    (Poly.mk ([((0 : ℚ), (0 : ℚ)), (4, 0), (4, 4)].map toPt) []).contains (footOf ⟨0, 0, 2, 2, 0, 0⟩ 1 0) = false ∧
    ∀ e ∈ ringEdges ([((0 : ℚ), (0 : ℚ)), (4, 0), (4, 4)].map toPt), leftOf e.1 e.2 (footOf ⟨0, 0, 2, 2, 0, 0⟩ 1 1) ≠ 0 := by
  refine ⟨?_, by decide +kernel, by decide +kernel, by decide +kernel⟩
  intro p hp
  simp only [List.mem_cons, List.not_mem_nil, or_false] at hp
  rcases hp with rfl | rfl | rfl
  · exact ⟨0, 0, by norm_num⟩
  · exact ⟨0, 2, by norm_num⟩
  · exact ⟨2, 2, by norm_num⟩

end Karta.Grid
