import Verif.Vec.PolygonLemmas
import Verif.Vec.PlanarProps
import Mathlib.Algebra.Order.BigOperators.Group.List

/-!
Properties C38 (containment), C39 (holes), C40 (area), C41 (orientation), C42 (centroid),
C61 (cutting a polygon), C62 (boundary points).
-/

namespace Karta.Vec

/-! ### Containment -/

theorem windCount_eq (pt : Pt) (ps : List Pt) :
    windCount pt ps = ringSum (fun a b => windStep pt (a, b)) ps := by
  rw [windCount, foldl_add_eq_sum, zero_add, ← sum_ringEdges]

theorem isleft_eq (pt a b : Pt) : isleft pt a b = leftOf a b pt := by
  unfold isleft leftOf; ring

theorem isleft_swap (pt a b : Pt) : isleft pt b a = - isleft pt a b := by
  unfold isleft; ring

theorem windStep_swap (pt a b : Pt) : windStep pt (b, a) = - windStep pt (a, b) := by
  unfold windStep
  simp only [isleft_swap pt a b]
  by_cases h1 : a.y ≤ pt.y ∧ pt.y < b.y
  · have h2 : ¬ (b.y ≤ pt.y ∧ pt.y < a.y) := fun h => absurd h1.2 (not_lt.2 h.1)
    have h3 : b.y > pt.y ∧ pt.y ≥ a.y := ⟨h1.2, h1.1⟩
    rw [if_neg h2, if_pos h3, if_pos h1]
    by_cases h4 : isleft pt a b > 0
    · rw [if_pos h4, if_pos (by linarith)]
    · rw [if_neg h4, if_neg (by linarith)]; rfl
  · rw [if_neg h1]
    by_cases h2 : b.y ≤ pt.y ∧ pt.y < a.y
    · have h3 : a.y > pt.y ∧ pt.y ≥ b.y := ⟨h2.2, h2.1⟩
      rw [if_pos h2, if_pos h3]
      by_cases h4 : isleft pt a b < 0
      · rw [if_pos h4, if_pos (by linarith)]; rfl
      · rw [if_neg h4, if_neg (by linarith)]; rfl
    · have h3 : ¬ (b.y > pt.y ∧ pt.y ≥ a.y) := fun h => h1 ⟨h.2, h.1⟩
      have h4 : ¬ (a.y > pt.y ∧ pt.y ≥ b.y) := fun h => h2 ⟨h.2, h.1⟩
      rw [if_neg h2, if_neg h3, if_neg h4]; rfl

theorem windStep_shift (v pt a b : Pt) :
    windStep (Pt.shift v pt) (Pt.shift v a, Pt.shift v b) = windStep pt (a, b) := by
  unfold windStep isleft Pt.shift
  simp only [add_le_add_iff_right, add_lt_add_iff_right, gt_iff_lt, ge_iff_le, add_sub_add_right_eq_sub]

theorem sum_congr_edges {M : Type} [AddCommGroup M] (f g : Pt → Pt → M) (ps : List Pt)
    (h : ∀ a b, (a, b) ∈ ringEdges ps → f a b = g a b) : ringSum f ps = ringSum g ps := by
  rw [← sum_ringEdges, ← sum_ringEdges]
  congr 1
  apply List.map_congr_left
  rintro ⟨a, b⟩ he
  exact h a b he

/-- C38: containment does not depend on the starting vertex or on the direction of the vertex
list, and moves with the polygon. -/
theorem C38_invariance (pt : Pt) (ps : List Pt) :
    (∀ k, ringContains pt (ps.rotate k) = ringContains pt ps) ∧
    ringContains pt ps.reverse = ringContains pt ps ∧
    ∀ v, ringContains (Pt.shift v pt) (ps.map (Pt.shift v)) = ringContains pt ps := by
  unfold ringContains
  refine ⟨fun k => ?_, ?_, fun v => ?_⟩
  · rw [windCount_eq, windCount_eq, ringSum_rotate]
  · have : windCount pt ps.reverse = - windCount pt ps := by
      rw [windCount_eq, windCount_eq, ringSum_reverse, ← ringSum_neg]
      exact sum_congr_edges _ _ _ fun a b _ => windStep_swap pt a b
    rw [this]
    simp
  · rw [windCount_eq, windCount_eq, ringSum_map]
    simp only [windStep_shift]

theorem mem_ringEdges (ps : List Pt) (a b : Pt) : (a, b) ∈ ringEdges ps ↔ IsEdge ps a b := by
  have h := mem_segsOf true ps ⟨a, b⟩
  simp only [IsSegment, true_and] at h
  unfold IsEdge
  rw [← h]
  simp only [segsOf, if_true, ringEdges, List.zip_eq_zipWith]
  simp only [List.mem_iff_getElem?, List.getElem?_zipWith_eq_some]
  constructor
  · rintro ⟨i, x, y, h1, h2, h3⟩; cases h3; exact ⟨i, a, b, h1, h2, rfl⟩
  · rintro ⟨i, x, y, h1, h2, h3⟩; cases h3; exact ⟨i, a, b, h1, h2, rfl⟩

theorem edge_mem {ps : List Pt} {a b : Pt} (h : (a, b) ∈ ringEdges ps) : a ∈ ps ∧ b ∈ ps := by
  obtain ⟨h1, h2⟩ := List.of_mem_zip h
  exact ⟨h1, List.mem_rotate.1 h2⟩

/-- C38: a point that some line separates from all the vertices is never contained. -/
theorem C38_separated_not_contained (pt : Pt) (ps : List Pt) (nx ny c : ℚ)
    (hv : ∀ v ∈ ps, c ≤ nx * v.x + ny * v.y) (hp : nx * pt.x + ny * pt.y < c) :
    ringContains pt ps = false := by
  -- the sign of the turn at a crossing is the sign of `nx`
  have key : ∀ a ∈ ps, ∀ b ∈ ps, a.y ≤ pt.y → pt.y < b.y → 0 < nx * isleft pt a b := by
    intro a ha b hb h1 h2
    have ka : 0 < nx * (a.x - pt.x) + ny * (a.y - pt.y) := by linarith [hv a ha]
    have kb : 0 < nx * (b.x - pt.x) + ny * (b.y - pt.y) := by linarith [hv b hb]
    have e : nx * isleft pt a b = (nx * (a.x - pt.x) + ny * (a.y - pt.y)) * (b.y - pt.y)
        + (nx * (b.x - pt.x) + ny * (b.y - pt.y)) * (pt.y - a.y) := by
      unfold isleft; ring
    rw [e]
    have := mul_pos ka (by linarith : 0 < b.y - pt.y)
    have := mul_nonneg kb.le (by linarith : 0 ≤ pt.y - a.y)
    linarith
  have hz : windCount pt ps = 0 := by
    rw [windCount_eq]
    rcases lt_or_ge 0 nx with hn | hn
    · -- every crossing is counted
      rw [← ringSum_telescope (fun v : Pt => if pt.y < v.y then (1 : Int) else 0) ps]
      apply sum_congr_edges
      intro a b he
      obtain ⟨ha, hb⟩ := edge_mem he
      unfold windStep
      simp only
      by_cases h1 : a.y ≤ pt.y ∧ pt.y < b.y
      · have := (mul_pos_iff_of_pos_left hn).1 (key a ha b hb h1.1 h1.2)
        rw [if_pos h1, if_pos this, if_pos h1.2, if_neg (not_lt.2 h1.1)]; rfl
      · rw [if_neg h1]
        by_cases h2 : a.y > pt.y ∧ pt.y ≥ b.y
        · have := (mul_pos_iff_of_pos_left hn).1 (key b hb a ha h2.2 h2.1)
          rw [isleft_swap] at this
          rw [if_pos h2, if_pos (by linarith), if_neg (not_lt.2 h2.2), if_pos h2.1]; rfl
        · rw [if_neg h2]
          by_cases h3 : pt.y < a.y
          · have h4 : pt.y < b.y := not_le.1 fun h => h2 ⟨h3, h⟩
            rw [if_pos h3, if_pos h4]; rfl
          · have h4 : ¬ pt.y < b.y := fun h => h1 ⟨not_lt.1 h3, h⟩
            rw [if_neg h3, if_neg h4]; rfl
    · -- no crossing is counted
      rw [← ringSum_zero (M := Int) ps]
      apply sum_congr_edges
      intro a b he
      obtain ⟨ha, hb⟩ := edge_mem he
      unfold windStep
      simp only
      by_cases h1 : a.y ≤ pt.y ∧ pt.y < b.y
      · have := key a ha b hb h1.1 h1.2
        have h3 : ¬ isleft pt a b > 0 := by
          intro h; nlinarith [mul_nonneg (neg_nonneg.2 hn) h.le]
        rw [if_pos h1, if_neg h3]
      · rw [if_neg h1]
        by_cases h2 : a.y > pt.y ∧ pt.y ≥ b.y
        · have := key b hb a ha h2.2 h2.1
          have h3 : ¬ isleft pt a b < 0 := by
            intro h
            rw [isleft_swap] at this
            nlinarith [mul_nonneg (neg_nonneg.2 hn) (neg_pos.2 h).le]
          rw [if_pos h2, if_neg h3]
        · rw [if_neg h2]
  simp [ringContains, hz]

/-- C38: a point outside the bounding box is never contained. -/
theorem C38_outside_bbox (pt : Pt) (ps : List Pt) (b : Box) (hb : bbox ps = some b)
    (hout : ¬ b.Contains pt) : ringContains pt ps = false := by
  have hc := bbox_contains hb
  unfold Box.Contains at hout
  by_cases h1 : b.xmin ≤ pt.x
  · by_cases h2 : pt.x ≤ b.xmax
    · by_cases h3 : b.ymin ≤ pt.y
      · have h4 : ¬ pt.y ≤ b.ymax := fun h4 => hout ⟨h1, h2, h3, h4⟩
        apply C38_separated_not_contained pt ps 0 (-1) (-b.ymax)
        · intro v hv; linarith [(hc v hv).2.2.2]
        · linarith [not_le.1 h4]
      · apply C38_separated_not_contained pt ps 0 1 b.ymin
        · intro v hv; linarith [(hc v hv).2.2.1]
        · linarith [not_le.1 h3]
    · apply C38_separated_not_contained pt ps (-1) 0 (-b.xmax)
      · intro v hv; linarith [(hc v hv).2.1]
      · linarith [not_le.1 h2]
  · apply C38_separated_not_contained pt ps 1 0 b.xmin
    · intro v hv; linarith [(hc v hv).1]
    · linarith [not_le.1 h1]

theorem sum_nonneg_eq_zero {α : Type} (g : α → ℚ) (l : List α) (h : ∀ e ∈ l, 0 ≤ g e)
    (hs : (l.map g).sum = 0) : ∀ e ∈ l, g e = 0 := by
  induction l with
  | nil => simp
  | cons a l ih =>
    have hn : 0 ≤ (l.map g).sum := by
      apply List.sum_nonneg
      intro x hx
      obtain ⟨e, he, rfl⟩ := List.mem_map.1 hx
      exact h e (by simp [he])
    have ha := h a (by simp)
    simp only [List.map_cons, List.sum_cons] at hs
    have h1 : g a = 0 := by linarith
    have h2 : (l.map g).sum = 0 := by linarith
    intro e he
    rcases List.mem_cons.1 he with rfl | he
    · exact h1
    · exact ih (fun e he => h e (by simp [he])) h2 e he

/-- A quantity that never increases along the edges of a ring is constant. -/
theorem ring_monotone_const (f : Pt → ℚ) (ps : List Pt)
    (h : ∀ a b, (a, b) ∈ ringEdges ps → f b ≤ f a) :
    ∀ a b, (a, b) ∈ ringEdges ps → f b = f a := by
  intro a b he
  have ht := ringSum_telescope f ps
  rw [← sum_ringEdges] at ht
  have h0 : ((ringEdges ps).map fun e => f e.1 - f e.2).sum = 0 := by
    have : ((ringEdges ps).map fun e => f e.1 - f e.2).sum
        = - ((ringEdges ps).map fun e => f e.2 - f e.1).sum := by
      rw [List.sum_neg, List.map_map]
      congr 1
      apply List.map_congr_left
      intro e _; simp
    rw [this, ht, neg_zero]
  have := sum_nonneg_eq_zero (fun e : Pt × Pt => f e.1 - f e.2) (ringEdges ps)
    (fun e he => by have := h e.1 e.2 he; linarith) h0 (a, b) he
  simp only at this
  linarith

/-- C38: a point strictly to the left of every edge (of positive length) is contained. -/
theorem C38_left_of_all_edges (pt : Pt) (ps : List Pt)
    (hne : ∃ a b, IsEdge ps a b ∧ a ≠ b)
    (hl : ∀ a b, IsEdge ps a b → a ≠ b → 0 < leftOf a b pt) :
    ringContains pt ps = true := by
  have hl' : ∀ a b, (a, b) ∈ ringEdges ps → a ≠ b → 0 < isleft pt a b := by
    intro a b he hab
    rw [isleft_eq]
    exact hl a b ((mem_ringEdges ps a b).1 he) hab
  by_contra hc
  have hz : windCount pt ps = 0 := by
    by_contra h
    exact hc (by simp [ringContains, h])
  -- no edge crosses upwards
  have hup : ∀ a b, (a, b) ∈ ringEdges ps → ¬ (a.y ≤ pt.y ∧ pt.y < b.y) := by
    have hnn : ∀ e ∈ ringEdges ps, (0 : ℚ) ≤ (windStep pt e : ℚ) := by
      rintro ⟨a, b⟩ he
      unfold windStep
      simp only
      by_cases h1 : a.y ≤ pt.y ∧ pt.y < b.y
      · rw [if_pos h1]; split <;> norm_num
      · rw [if_neg h1]
        by_cases h2 : a.y > pt.y ∧ pt.y ≥ b.y
        · have hab : a ≠ b := by rintro rfl; linarith [h2.1, h2.2]
          have := hl' a b he hab
          rw [if_pos h2, if_neg (by linarith)]; norm_num
        · rw [if_neg h2]; norm_num
    have hs : ((ringEdges ps).map fun e => (windStep pt e : ℚ)).sum = 0 := by
      have h1 : ((ringEdges ps).map fun e => windStep pt e).sum = 0 := by
        rw [windCount_eq, ← sum_ringEdges] at hz; exact hz
      have h2 : ∀ l : List (Pt × Pt), (l.map fun e => (windStep pt e : ℚ)).sum
          = (((l.map fun e => windStep pt e).sum : Int) : ℚ) := by
        intro l
        induction l with
        | nil => simp
        | cons e l ih => simp only [List.map_cons, List.sum_cons, ih]; push_cast; ring
      rw [h2, h1]; norm_num
    have hzero := sum_nonneg_eq_zero (fun e => (windStep pt e : ℚ)) (ringEdges ps) hnn hs
    intro a b he h1
    have hab : a ≠ b := by rintro rfl; linarith [h1.1, h1.2]
    have := hzero (a, b) he
    simp only [windStep] at this
    rw [if_pos h1, if_pos (hl' a b he hab)] at this
    norm_num at this
  -- so no edge crosses downwards either
  have hside := ring_monotone_const (fun v => if pt.y < v.y then (1 : ℚ) else 0) ps (by
    intro a b he
    by_cases h1 : pt.y < b.y
    · have : pt.y < a.y := not_le.1 fun h => hup a b he ⟨h, h1⟩
      simp [h1, this]
    · simp only [h1, if_false]
      split <;> norm_num)
  have hside' : ∀ a b, (a, b) ∈ ringEdges ps → (pt.y < a.y ↔ pt.y < b.y) := by
    intro a b he
    have := hside a b he
    by_cases h1 : pt.y < a.y <;> by_cases h2 : pt.y < b.y <;> simp [h1, h2] at this ⊢
  -- no edge of positive length has an end at the height of the point
  have hlev := ring_monotone_const
    (fun v => if v.y = pt.y then (if v.x < pt.x then (1 : ℚ) else -1) else 0) ps (by
    intro a b he
    by_cases hab : a = b
    · rw [hab]
    have hc := hl' a b he hab
    have hs := hside' a b he
    by_cases ha : a.y = pt.y
    · have hby : b.y ≤ pt.y := not_lt.1 fun h => absurd (hs.2 h) (by rw [ha]; exact lt_irrefl _)
      have hax : a.x < pt.x := by
        by_contra h
        push Not at h
        unfold isleft at hc
        rw [ha] at hc
        nlinarith
      rw [if_pos ha, if_pos hax]
      split
      · split <;> norm_num
      · norm_num
    · rw [if_neg ha]
      by_cases hb : b.y = pt.y
      · have hay : a.y ≤ pt.y := not_lt.1 fun h => absurd (hs.1 h) (by rw [hb]; exact lt_irrefl _)
        have hbx : ¬ b.x < pt.x := by
          intro h
          unfold isleft at hc
          rw [hb] at hc
          nlinarith [mul_nonneg (sub_nonneg.2 hay) (sub_nonneg.2 h.le)]
        rw [if_pos hb, if_neg hbx]; norm_num
      · rw [if_neg hb])
  have hoff : ∀ a b, (a, b) ∈ ringEdges ps → a ≠ b → a.y ≠ pt.y ∧ b.y ≠ pt.y := by
    intro a b he hab
    have hc := hl' a b he hab
    have hs := hside' a b he
    have hl := hlev a b he
    have heq : a.y = pt.y ↔ b.y = pt.y := by
      by_cases ha : a.y = pt.y <;> by_cases hb : b.y = pt.y <;> simp only [ha, hb, if_true, if_false] at hl ⊢
      · split at hl <;> norm_num at hl
      · split at hl <;> norm_num at hl
    by_cases ha : a.y = pt.y
    · have hb := heq.1 ha
      unfold isleft at hc
      rw [ha, hb] at hc
      nlinarith
    · exact ⟨ha, fun h => ha (heq.2 h)⟩
  -- the cotangent of the direction from the point strictly decreases: impossible on a ring
  have hfin := ring_monotone_const (fun v => if v.y = pt.y then 0 else (v.x - pt.x) / (v.y - pt.y)) ps
  have hlt : ∀ a b, (a, b) ∈ ringEdges ps → a ≠ b →
      (fun v : Pt => if v.y = pt.y then (0 : ℚ) else (v.x - pt.x) / (v.y - pt.y)) b <
      (fun v : Pt => if v.y = pt.y then (0 : ℚ) else (v.x - pt.x) / (v.y - pt.y)) a := by
    intro a b he hab
    obtain ⟨ha, hb⟩ := hoff a b he hab
    have hc := hl' a b he hab
    have hs := hside' a b he
    simp only [if_neg ha, if_neg hb]
    have ha0 : a.y - pt.y ≠ 0 := sub_ne_zero.2 ha
    have hb0 : b.y - pt.y ≠ 0 := sub_ne_zero.2 hb
    have hpos : 0 < (a.y - pt.y) * (b.y - pt.y) := by
      by_cases h : pt.y < a.y
      · exact mul_pos (by linarith) (by linarith [hs.1 h])
      · have h' : ¬ pt.y < b.y := fun k => h (hs.2 k)
        have h1 : a.y < pt.y := lt_of_le_of_ne (not_lt.1 h) ha
        have h2 : b.y < pt.y := lt_of_le_of_ne (not_lt.1 h') hb
        exact mul_pos_of_neg_of_neg (by linarith) (by linarith)
    have e : (a.x - pt.x) / (a.y - pt.y) - (b.x - pt.x) / (b.y - pt.y)
        = isleft pt a b / ((a.y - pt.y) * (b.y - pt.y)) := by
      unfold isleft; field_simp; ring
    have := div_pos hc hpos
    rw [← e] at this
    linarith
  obtain ⟨a, b, he, hab⟩ := hne
  have he' := (mem_ringEdges ps a b).2 he
  have h1 := hfin (by
    intro a b he
    by_cases hab : a = b
    · rw [hab]
    · exact (hlt a b he hab).le) a b he'
  exact absurd h1 (hlt a b he' hab).ne

/-- Spec: every vertex lies on or to the left of every edge. -/
def ConvexLeft (ps : List Pt) : Prop :=
  ∀ a b, IsEdge ps a b → ∀ v ∈ ps, 0 ≤ leftOf a b v

/-- C38, convex polygons: for a polygon that turns left, a point strictly inside (strictly left of
every edge) is contained and a point strictly outside (strictly right of some edge) is not. -/
theorem C38_convex (pt : Pt) (ps : List Pt) (hconv : ConvexLeft ps)
    (hne : ∃ a b, IsEdge ps a b ∧ a ≠ b) :
    ((∀ a b, IsEdge ps a b → a ≠ b → 0 < leftOf a b pt) → ringContains pt ps = true) ∧
    ((∃ a b, IsEdge ps a b ∧ leftOf a b pt < 0) → ringContains pt ps = false) := by
  refine ⟨C38_left_of_all_edges pt ps hne, ?_⟩
  rintro ⟨a, b, he, hlt⟩
  apply C38_separated_not_contained pt ps (-(b.y - a.y)) (b.x - a.x)
    (-(b.y - a.y) * a.x + (b.x - a.x) * a.y)
  · intro v hv
    have := hconv a b he v hv
    unfold leftOf at this
    linarith
  · unfold leftOf at hlt
    linarith

/-- C38, convex polygons that turn right: the same by reversing the vertex list. -/
theorem C38_convex_clockwise (pt : Pt) (ps : List Pt) (hconv : ConvexLeft ps.reverse)
    (hne : ∃ a b, IsEdge ps.reverse a b ∧ a ≠ b) :
    ((∀ a b, IsEdge ps.reverse a b → a ≠ b → 0 < leftOf a b pt) → ringContains pt ps = true) ∧
    ((∃ a b, IsEdge ps.reverse a b ∧ leftOf a b pt < 0) → ringContains pt ps = false) := by
  have h := C38_convex pt ps.reverse hconv hne
  rw [(C38_invariance pt ps).2.1] at h
  exact h

/-- A unit square and a point inside and outside. -/
def exSquare : List Pt := [⟨0, 0⟩, ⟨1, 0⟩, ⟨1, 1⟩, ⟨0, 1⟩]

theorem isEdge_exSquare (a b : Pt) : IsEdge exSquare a b ↔
    (a, b) ∈ [((⟨0, 0⟩ : Pt), (⟨1, 0⟩ : Pt)), (⟨1, 0⟩, ⟨1, 1⟩), (⟨1, 1⟩, ⟨0, 1⟩), (⟨0, 1⟩, ⟨0, 0⟩)] := by
  rw [← mem_ringEdges]; rfl

/-- The hypotheses of the convex case are met by the unit square. -/
example : ConvexLeft exSquare ∧ (∃ a b, IsEdge exSquare a b ∧ a ≠ b) ∧
    (∀ a b, IsEdge exSquare a b → a ≠ b → 0 < leftOf a b ⟨1 / 2, 1 / 3⟩) ∧
    (∃ a b, IsEdge exSquare a b ∧ leftOf a b ⟨2, 1 / 3⟩ < 0) := by
  refine ⟨?_, ?_, ?_, ?_⟩
  · intro a b he v hv
    rw [isEdge_exSquare] at he
    simp only [exSquare, List.mem_cons, Prod.mk.injEq, List.not_mem_nil, or_false] at he hv
    rcases he with ⟨rfl, rfl⟩ | ⟨rfl, rfl⟩ | ⟨rfl, rfl⟩ | ⟨rfl, rfl⟩ <;>
      rcases hv with rfl | rfl | rfl | rfl <;> norm_num [leftOf]
  · exact ⟨⟨0, 0⟩, ⟨1, 0⟩, by rw [isEdge_exSquare]; simp, by decide⟩
  · intro a b he _
    rw [isEdge_exSquare] at he
    simp only [List.mem_cons, Prod.mk.injEq, List.not_mem_nil, or_false] at he
    rcases he with ⟨rfl, rfl⟩ | ⟨rfl, rfl⟩ | ⟨rfl, rfl⟩ | ⟨rfl, rfl⟩ <;> norm_num [leftOf]
  · exact ⟨⟨1, 0⟩, ⟨1, 1⟩, by rw [isEdge_exSquare]; simp, by norm_num [leftOf]⟩

/-! ### Cutting -/

/-- C61: cut the polygon `u, as, v, bs` in two along any path `u, cs, v`.  The winding number of
the whole is the sum over the pieces, so a contained point is contained in one of the pieces, a
point in exactly one piece is contained, and the signed areas add up. -/
theorem C61_cut (u v : Pt) (as bs cs : List Pt) (pt : Pt) :
    (ringContains pt (u :: as ++ v :: bs) = true →
      ringContains pt (u :: as ++ v :: cs.reverse) = true ∨
      ringContains pt (u :: cs ++ v :: bs) = true) ∧
    ((ringContains pt (u :: as ++ v :: cs.reverse) = true ↔
      ¬ ringContains pt (u :: cs ++ v :: bs) = true) →
      ringContains pt (u :: as ++ v :: bs) = true) ∧
    signedArea (u :: as ++ v :: bs) =
      signedArea (u :: as ++ v :: cs.reverse) + signedArea (u :: cs ++ v :: bs) := by
  have hw : windCount pt (u :: as ++ v :: bs) =
      windCount pt (u :: as ++ v :: cs.reverse) + windCount pt (u :: cs ++ v :: bs) := by
    rw [windCount_eq, windCount_eq, windCount_eq]
    exact ringSum_cut _ (fun a b => windStep_swap pt a b) u v as bs cs
  refine ⟨?_, ?_, ?_⟩
  · simp only [ringContains, decide_eq_true_eq, hw]
    intro h
    by_contra hc
    push Not at hc
    rw [hc.1, hc.2] at h
    exact h rfl
  · simp only [ringContains, decide_eq_true_eq, hw]
    intro h
    by_cases h1 : windCount pt (u :: cs ++ v :: bs) = 0
    · have := h.2 (fun k => k h1)
      rw [h1, add_zero]; exact this
    · have : windCount pt (u :: as ++ v :: cs.reverse) = 0 := by
        by_contra k
        exact (h.1 k) h1
      rw [this, zero_add]; exact h1
  · unfold signedArea
    rw [ringSum_cut cross (fun a b => by unfold cross; ring) u v as bs cs]
    ring

example : ringContains ⟨1 / 2, 1 / 4⟩ ((⟨0, 0⟩ : Pt) :: [⟨1, 0⟩] ++ ⟨1, 1⟩ :: [⟨0, 1⟩]) = true ∧
    ringContains ⟨1 / 2, 1 / 4⟩ ((⟨0, 0⟩ : Pt) :: [⟨1, 0⟩] ++ ⟨1, 1⟩ :: ([] : List Pt).reverse) = true ∧
    ringContains ⟨1 / 2, 1 / 4⟩ ((⟨0, 0⟩ : Pt) :: [] ++ ⟨1, 1⟩ :: [⟨0, 1⟩]) = false := by
  decide +kernel

/-! ### Boundary points -/

/-- The rectangle with the given corners, counter-clockwise from the lower left. -/
def rect (x0 y0 x1 y1 : ℚ) : List Pt := [⟨x0, y0⟩, ⟨x1, y0⟩, ⟨x1, y1⟩, ⟨x0, y1⟩]

/-- C62 is violated: points on the upper edge of the unit square are not contained, contrary to
the documentation ("inside or on the boundary"). -/
theorem C62_violated_upper_edge :
    ∃ (ps : List Pt) (p : Pt) (s : Seg), IsSegment true ps s ∧ s.On p ∧
      (Poly.mk ps []).contains p = false := by
  refine ⟨exSquare, ⟨1 / 2, 1⟩, ⟨⟨1, 1⟩, ⟨0, 1⟩⟩, Or.inl ⟨2, rfl, rfl⟩,
    ⟨1 / 2, by norm_num, by norm_num, by norm_num, by norm_num⟩, by decide +kernel⟩

/-- C62, what holds instead: a rectangle contains exactly its interior, its left and lower edges
without their far end points, so that adjacent rectangles share no point and leave no gap.  Missing
for the full C62: the right and upper edges. -/
theorem C62_rectangle_partial (x0 y0 x1 y1 : ℚ) (hx : x0 < x1) (hy : y0 < y1) (p : Pt) :
    ringContains p (rect x0 y0 x1 y1) = true ↔ x0 ≤ p.x ∧ p.x < x1 ∧ y0 ≤ p.y ∧ p.y < y1 := by
  have e : windCount p (rect x0 y0 x1 y1) =
      windStep p (⟨x1, y0⟩, ⟨x1, y1⟩) + windStep p (⟨x0, y1⟩, ⟨x0, y0⟩) := by
    rw [windCount_eq]
    have h1 : ∀ a b y : ℚ, windStep p (⟨a, y⟩, ⟨b, y⟩) = 0 := by
      intro a b y
      unfold windStep
      simp only
      rw [if_neg (fun h => absurd h.2 (not_lt.2 h.1)), if_neg (fun h => absurd h.1 (not_lt.2 h.2))]
    simp only [rect, ringSum, List.cons_append, List.nil_append, pathSum, h1]
    ring
  have e1 : windStep p (⟨x1, y0⟩, ⟨x1, y1⟩) = if y0 ≤ p.y ∧ p.y < y1 ∧ p.x < x1 then 1 else 0 := by
    unfold windStep isleft
    simp only
    by_cases h : y0 ≤ p.y ∧ p.y < y1
    · rw [if_pos h]
      by_cases h2 : p.x < x1
      · rw [if_pos (by nlinarith), if_pos ⟨h.1, h.2, h2⟩]
      · rw [if_neg (by nlinarith [not_lt.1 h2]), if_neg (fun k => h2 k.2.2)]
    · rw [if_neg h, if_neg (fun k => by linarith [k.1, k.2]), if_neg (fun k => h ⟨k.1, k.2.1⟩)]
  have e2 : windStep p (⟨x0, y1⟩, ⟨x0, y0⟩) = if y0 ≤ p.y ∧ p.y < y1 ∧ p.x < x0 then -1 else 0 := by
    unfold windStep isleft
    simp only
    rw [if_neg (fun k => absurd (lt_of_le_of_lt k.1 k.2) (by intro k'; linarith))]
    by_cases h : y0 ≤ p.y ∧ p.y < y1
    · rw [if_pos ⟨h.2, h.1⟩]
      by_cases h2 : p.x < x0
      · rw [if_pos (by nlinarith), if_pos ⟨h.1, h.2, h2⟩]
      · rw [if_neg (by nlinarith [not_lt.1 h2]), if_neg (fun k => h2 k.2.2)]
    · rw [if_neg (fun k => h ⟨k.2, k.1⟩), if_neg (fun k => h ⟨k.1, k.2.1⟩)]
  simp only [ringContains, decide_eq_true_eq, e, e1, e2]
  by_cases h : y0 ≤ p.y ∧ p.y < y1
  · by_cases h1 : p.x < x0
    · have h2 : p.x < x1 := by linarith
      simp [h, h1, h2]
    · by_cases h2 : p.x < x1
      · simp [h, h1, h2, not_lt.1 h1]
      · simp [h, h1, h2]
  · have n1 : ¬ (y0 ≤ p.y ∧ p.y < y1 ∧ p.x < x1) := fun k => h ⟨k.1, k.2.1⟩
    have n2 : ¬ (y0 ≤ p.y ∧ p.y < y1 ∧ p.x < x0) := fun k => h ⟨k.1, k.2.1⟩
    rw [if_neg n1, if_neg n2]
    constructor
    · intro k; exact absurd rfl k
    · rintro ⟨_, _, k1, k2⟩; exact absurd ⟨k1, k2⟩ h

/-! ### Holes -/

theorem anyContains_iff (pt : Pt) (subs : List Poly) :
    Poly.anyContains pt subs = true ↔ ∃ q ∈ subs, q.contains pt = true := by
  induction subs with
  | nil => simp [Poly.anyContains]
  | cons p ps ih => simp [Poly.anyContains, ih]

/-- C39: a polygon contains a point exactly when the boundary ring does and none of the
sub-polygons does (at every level of nesting). -/
theorem C39_holes_excluded (pt : Pt) (ring : List Pt) (subs : List Poly) :
    (Poly.mk ring subs).contains pt = true ↔
      ringContains pt ring = true ∧ ∀ q ∈ subs, q.contains pt = false := by
  simp only [Poly.contains, Bool.and_eq_true, Bool.not_eq_true']
  constructor
  · rintro ⟨h1, h2⟩
    refine ⟨h1, fun q hq => ?_⟩
    by_contra hc
    have := (anyContains_iff pt subs).2 ⟨q, hq, by simpa using hc⟩
    rw [h2] at this; cases this
  · rintro ⟨h1, h2⟩
    refine ⟨h1, ?_⟩
    by_contra hc
    obtain ⟨q, hq, h⟩ := (anyContains_iff pt subs).1 (by simpa using hc)
    rw [h2 q hq] at h; cases h

mutual
/-- Spec: no ring of the polygon is empty. -/
def Poly.NonEmpty : Poly → Prop
  | .mk ring subs => ring ≠ [] ∧ Poly.AllNonEmpty subs
/-- Spec: no ring of any polygon of the list is empty. -/
def Poly.AllNonEmpty : List Poly → Prop
  | [] => True
  | p :: ps => p.NonEmpty ∧ Poly.AllNonEmpty ps
end

mutual
/-- Spec: absolute shoelace area of the boundary, minus that of the holes. -/
def Poly.trueArea : Poly → ℚ
  | .mk ring subs => |signedArea ring| - Poly.trueAreaSum subs
/-- Spec: total area of a list of polygons. -/
def Poly.trueAreaSum : List Poly → ℚ
  | [] => 0
  | p :: ps => p.trueArea + Poly.trueAreaSum ps
end

theorem signedAreaSum_eq (ps : List Pt) (hne : ps ≠ []) : signedAreaSum ps = .ok (signedArea ps) := by
  cases ps with
  | nil => exact absurd rfl hne
  | cons p ps =>
    simp only [signedAreaSum]
    congr 1
    rw [foldl_add_eq_sum, zero_add,
      sum_segmentTuples' (fun a b : Pt => ((b.x + a.x) / 2 - minX p ps) * (b.y - a.y))]
    have : (fun a b : Pt => ((b.x + a.x) / 2 - minX p ps) * (b.y - a.y)) =
        fun a b => (1 / 2) * cross a b +
          ((fun v : Pt => v.x * v.y / 2 - minX p ps * v.y) b -
           (fun v : Pt => v.x * v.y / 2 - minX p ps * v.y) a) := by
      funext a b; unfold cross; ring
    rw [this, ringSum_add, ringSum_mul, ringSum_telescope (fun v : Pt => v.x * v.y / 2 - minX p ps * v.y)]
    unfold signedArea; ring

mutual
theorem area_eq : ∀ p : Poly, p.NonEmpty → p.area = .ok p.trueArea
  | .mk ring subs => fun h => by
    rw [Poly.NonEmpty] at h
    rw [Poly.area, signedAreaSum_eq ring h.1, areaSum_eq subs h.2, Poly.trueArea]
    rfl
theorem areaSum_eq : ∀ ps : List Poly, Poly.AllNonEmpty ps → Poly.areaSum ps = .ok (Poly.trueAreaSum ps)
  | [] => fun _ => by rw [Poly.areaSum, Poly.trueAreaSum]
  | p :: ps => fun h => by
    rw [Poly.AllNonEmpty] at h
    rw [Poly.areaSum, area_eq p h.1, areaSum_eq ps h.2, Poly.trueAreaSum]
    rfl
end

/-- C39: the area is the absolute shoelace area of the boundary minus the areas of the
sub-polygons, recursively. -/
theorem C39_area_minus_holes (p : Poly) (h : p.NonEmpty) : p.area = .ok p.trueArea := area_eq p h

/-- A square with a square hole that holds a square island. -/
def exNested : Poly :=
  .mk (rect 0 0 10 10) [.mk (rect 2 2 8 8) [.mk (rect 4 4 6 6) []]]

example : exNested.NonEmpty ∧ exNested.contains ⟨1, 1⟩ = true ∧ exNested.contains ⟨3, 3⟩ = false ∧
    exNested.contains ⟨5, 5⟩ = true ∧ exNested.area.toOption = some 68 := by
  refine ⟨?_, ?_, ?_, ?_, ?_⟩
  · simp [exNested, Poly.NonEmpty, Poly.AllNonEmpty, rect]
  all_goals decide +kernel

/-! ### Area -/

theorem signedArea_rotate (ps : List Pt) (k : Nat) : signedArea (ps.rotate k) = signedArea ps := by
  unfold signedArea; rw [ringSum_rotate]

theorem signedArea_reverse (ps : List Pt) : signedArea ps.reverse = - signedArea ps := by
  unfold signedArea
  have : (fun a b : Pt => cross b a) = fun a b => - cross a b := by
    funext a b; unfold cross; ring
  rw [ringSum_reverse, this, ringSum_neg]; ring

theorem signedArea_affine (m : Affine) (ps : List Pt) :
    signedArea (ps.map m.apply) = m.det * signedArea ps := by
  unfold signedArea
  rw [ringSum_map]
  have : (fun a b : Pt => cross (m.apply a) (m.apply b)) = fun a b => m.det * cross a b +
      ((fun v : Pt => m.c * (m.d * v.x + m.e * v.y) - m.f * (m.a * v.x + m.b * v.y)) b -
       (fun v : Pt => m.c * (m.d * v.x + m.e * v.y) - m.f * (m.a * v.x + m.b * v.y)) a) := by
    funext a b; unfold cross Affine.apply Affine.det; ring
  rw [this, ringSum_add, ringSum_mul,
    ringSum_telescope (fun v : Pt => m.c * (m.d * v.x + m.e * v.y) - m.f * (m.a * v.x + m.b * v.y))]
  ring

mutual
theorem trueArea_affine (m : Affine) : ∀ p : Poly, (p.map m.apply).trueArea = |m.det| * p.trueArea
  | .mk ring subs => by
    rw [Poly.map, Poly.trueArea, Poly.trueArea, signedArea_affine, abs_mul,
      trueAreaSum_affine m subs]; ring
theorem trueAreaSum_affine (m : Affine) :
    ∀ ps : List Poly, Poly.trueAreaSum (Poly.mapAll m.apply ps) = |m.det| * Poly.trueAreaSum ps
  | [] => by rw [Poly.mapAll, Poly.trueAreaSum, mul_zero]
  | p :: ps => by
    rw [Poly.mapAll, Poly.trueAreaSum, Poly.trueAreaSum, trueArea_affine m p,
      trueAreaSum_affine m ps]; ring
end

mutual
theorem nonEmpty_map (g : Pt → Pt) : ∀ p : Poly, p.NonEmpty → (p.map g).NonEmpty
  | .mk ring subs => fun h => by
    rw [Poly.NonEmpty] at h
    rw [Poly.map, Poly.NonEmpty]
    exact ⟨by simpa using h.1, allNonEmpty_map g subs h.2⟩
theorem allNonEmpty_map (g : Pt → Pt) :
    ∀ ps : List Poly, Poly.AllNonEmpty ps → Poly.AllNonEmpty (Poly.mapAll g ps)
  | [] => fun _ => by rw [Poly.mapAll]; exact trivial
  | p :: ps => fun h => by
    rw [Poly.AllNonEmpty] at h
    rw [Poly.mapAll, Poly.AllNonEmpty]
    exact ⟨nonEmpty_map g p h.1, allNonEmpty_map g ps h.2⟩
end

/-- C40: the area of a polygon without holes does not depend on the starting vertex or the
direction of the vertex list, is `|det|` times as large after an affine map (so unchanged by a
translation), and is not negative. -/
theorem C40_area_invariance (ps : List Pt) (hne : ps ≠ []) :
    ∃ A : ℚ, (Poly.mk ps []).area = .ok A ∧ 0 ≤ A ∧
      (∀ k, (Poly.mk (ps.rotate k) []).area = .ok A) ∧
      (Poly.mk ps.reverse []).area = .ok A ∧
      (∀ v, (Poly.mk (ps.map (Pt.shift v)) []).area = .ok A) ∧
      (∀ m : Affine, (Poly.mk (ps.map m.apply) []).area = .ok (|m.det| * A)) := by
  have h : ∀ qs : List Pt, qs ≠ [] → (Poly.mk qs []).area = .ok |signedArea qs| := by
    intro qs hq
    rw [area_eq (.mk qs []) (by simp [Poly.NonEmpty, Poly.AllNonEmpty, hq]), Poly.trueArea,
      Poly.trueAreaSum, sub_zero]
  have hm : ∀ m : Affine, (Poly.mk (ps.map m.apply) []).area = .ok (|m.det| * |signedArea ps|) := by
    intro m
    rw [h _ (by simpa using hne), signedArea_affine, abs_mul]
  refine ⟨|signedArea ps|, h ps hne, abs_nonneg _, fun k => ?_, ?_, fun v => ?_, hm⟩
  · rw [h _ (by simpa using hne), signedArea_rotate]
  · rw [h _ (by simpa using hne), signedArea_reverse, abs_neg]
  · have := hm ⟨1, 0, v.x, 0, 1, v.y⟩
    have e : ps.map (Pt.shift v) = ps.map (Affine.apply ⟨1, 0, v.x, 0, 1, v.y⟩) := by
      apply List.map_congr_left
      intro p _; simp [Pt.shift, Affine.apply]
    rw [e, this]; simp [Affine.det]

/-- C40 with holes: an affine map of the whole polygon scales its area by `|det|`. -/
theorem C40_area_affine_with_holes (p : Poly) (h : p.NonEmpty) (m : Affine) :
    ∃ A : ℚ, p.area = .ok A ∧ (p.map m.apply).area = .ok (|m.det| * A) :=
  ⟨_, area_eq p h, by rw [area_eq _ (nonEmpty_map _ p h), trueArea_affine]⟩

/-- C40: the area of a triangle is half the absolute determinant of two of its sides. -/
theorem C40_triangle (a b c : Pt) :
    (Poly.mk [a, b, c] []).area = .ok |((b.x - a.x) * (c.y - a.y) - (b.y - a.y) * (c.x - a.x)) / 2| := by
  rw [area_eq (.mk [a, b, c] []) (by simp [Poly.NonEmpty, Poly.AllNonEmpty]), Poly.trueArea,
    Poly.trueAreaSum, sub_zero]
  congr 2
  unfold signedArea
  simp only [ringSum, pathSum, List.cons_append, List.nil_append, cross]
  ring

/-- C40: a polygon without vertices has no area (a ValueError is raised). -/
theorem C40_empty : (Poly.mk [] []).area = .error .valueError := rfl

example : (Poly.mk [⟨0, 0⟩, ⟨3, 0⟩, ⟨0, 4⟩] []).area.toOption = some 6 := by decide +kernel

/-! ### Orientation -/

/-- C41: a polygon is reported as clockwise exactly when its signed area is negative. -/
theorem C41_isclockwise_iff (ps : List Pt) : isclockwise ps = true ↔ signedArea ps < 0 := by
  unfold isclockwise signedArea
  rw [decide_eq_true_eq, sum_segmentTuples' (fun a b : Pt => (b.x - a.x) * (b.y + a.y))]
  have : (fun a b : Pt => (b.x - a.x) * (b.y + a.y)) = fun a b => (-1) * cross a b +
      ((fun v : Pt => v.x * v.y) b - (fun v : Pt => v.x * v.y) a) := by
    funext a b; unfold cross; ring
  rw [this, ringSum_add, ringSum_mul, ringSum_telescope (fun v : Pt => v.x * v.y)]
  constructor <;> intro h <;> linarith

/-- C41: the answer does not depend on the starting vertex or on the position of the polygon, and
flips when the vertex list is reversed, unless the signed area is zero. -/
theorem C41_invariance (ps : List Pt) :
    (∀ k, isclockwise (ps.rotate k) = isclockwise ps) ∧
    (∀ v, isclockwise (ps.map (Pt.shift v)) = isclockwise ps) ∧
    (signedArea ps ≠ 0 → isclockwise ps.reverse = !isclockwise ps) := by
  refine ⟨fun k => ?_, fun v => ?_, fun h => ?_⟩
  · rw [Bool.eq_iff_iff, C41_isclockwise_iff, C41_isclockwise_iff, signedArea_rotate]
  · have e : ps.map (Pt.shift v) = ps.map (Affine.apply ⟨1, 0, v.x, 0, 1, v.y⟩) := by
      apply List.map_congr_left
      intro p _; simp [Pt.shift, Affine.apply]
    rw [Bool.eq_iff_iff, C41_isclockwise_iff, C41_isclockwise_iff, e, signedArea_affine]
    simp [Affine.det]
  · rw [Bool.eq_iff_iff, Bool.not_eq_true', C41_isclockwise_iff, signedArea_reverse]
    have hn : isclockwise ps = false ↔ ¬ signedArea ps < 0 := by
      rw [← C41_isclockwise_iff]; simp
    rw [hn]
    constructor
    · intro k; linarith
    · intro k
      rcases lt_or_gt_of_ne h with h' | h'
      · exact absurd h' k
      · linarith

example : isclockwise exSquare = false ∧ isclockwise exSquare.reverse = true ∧
    signedArea exSquare ≠ 0 := by decide +kernel

/-! ### Centroid -/

/-- Twice the first moments of the polygon. -/
def momX (ps : List Pt) : ℚ := ringSum (fun a b => (a.x + b.x) * cross a b) ps
/-- See `momX`. -/
def momY (ps : List Pt) : ℚ := ringSum (fun a b => (a.y + b.y) * cross a b) ps

theorem centroid_eq (ps : List Pt) : centroid ps =
    if signedArea ps = 0 then none
    else some ⟨momX ps / (6 * signedArea ps), momY ps / (6 * signedArea ps)⟩ := by
  unfold centroid
  simp only
  rw [sum_segmentTuples' (fun a b : Pt => a.x * b.y - b.x * a.y),
    sum_segmentTuples' (fun a b : Pt => (a.x + b.x) * (a.x * b.y - b.x * a.y)),
    sum_segmentTuples' (fun a b : Pt => (a.y + b.y) * (a.x * b.y - b.x * a.y))]
  have e : 1 / 2 * ringSum (fun a b : Pt => a.x * b.y - b.x * a.y) ps = signedArea ps := by
    unfold signedArea
    have : (fun a b : Pt => a.x * b.y - b.x * a.y) = cross := rfl
    rw [this]; ring
  rw [e]
  by_cases h : signedArea ps = 0
  · rw [if_pos h, if_pos (by rw [h]; ring)]
  · rw [if_neg h, if_neg (by simpa using h)]
    rfl

theorem momX_affine (m : Affine) (ps : List Pt) :
    momX (ps.map m.apply) = m.det * (m.a * momX ps + m.b * momY ps + 6 * m.c * signedArea ps) := by
  unfold momX momY signedArea
  rw [ringSum_map]
  have : (fun a b : Pt => ((m.apply a).x + (m.apply b).x) * cross (m.apply a) (m.apply b)) =
      fun a b => (m.det * m.a) * ((a.x + b.x) * cross a b) + ((m.det * m.b) * ((a.y + b.y) * cross a b)
        + ((3 * m.c * m.det) * cross a b +
      ((fun v : Pt => (m.a * v.x + m.b * v.y + 2 * m.c) *
          (m.c * (m.d * v.x + m.e * v.y) - m.f * (m.a * v.x + m.b * v.y))) b -
       (fun v : Pt => (m.a * v.x + m.b * v.y + 2 * m.c) *
          (m.c * (m.d * v.x + m.e * v.y) - m.f * (m.a * v.x + m.b * v.y))) a))) := by
    funext a b; unfold cross Affine.apply Affine.det; ring
  rw [this, ringSum_add, ringSum_add, ringSum_add, ringSum_mul, ringSum_mul, ringSum_mul,
    ringSum_telescope (fun v : Pt => (m.a * v.x + m.b * v.y + 2 * m.c) *
          (m.c * (m.d * v.x + m.e * v.y) - m.f * (m.a * v.x + m.b * v.y)))]
  ring

theorem momY_affine (m : Affine) (ps : List Pt) :
    momY (ps.map m.apply) = m.det * (m.d * momX ps + m.e * momY ps + 6 * m.f * signedArea ps) := by
  unfold momX momY signedArea
  rw [ringSum_map]
  have : (fun a b : Pt => ((m.apply a).y + (m.apply b).y) * cross (m.apply a) (m.apply b)) =
      fun a b => (m.det * m.d) * ((a.x + b.x) * cross a b) + ((m.det * m.e) * ((a.y + b.y) * cross a b)
        + ((3 * m.f * m.det) * cross a b +
      ((fun v : Pt => (m.d * v.x + m.e * v.y + 2 * m.f) *
          (m.c * (m.d * v.x + m.e * v.y) - m.f * (m.a * v.x + m.b * v.y))) b -
       (fun v : Pt => (m.d * v.x + m.e * v.y + 2 * m.f) *
          (m.c * (m.d * v.x + m.e * v.y) - m.f * (m.a * v.x + m.b * v.y))) a))) := by
    funext a b; unfold cross Affine.apply Affine.det; ring
  rw [this, ringSum_add, ringSum_add, ringSum_add, ringSum_mul, ringSum_mul, ringSum_mul,
    ringSum_telescope (fun v : Pt => (m.d * v.x + m.e * v.y + 2 * m.f) *
          (m.c * (m.d * v.x + m.e * v.y) - m.f * (m.a * v.x + m.b * v.y)))]
  ring

/-- C42: the centroid of an affinely mapped polygon is the mapped centroid (the map must be
invertible). -/
theorem C42_affine_equivariant (ps : List Pt) (m : Affine) (hm : m.det ≠ 0) :
    centroid (ps.map m.apply) = (centroid ps).map m.apply := by
  rw [centroid_eq, centroid_eq, signedArea_affine, momX_affine, momY_affine]
  by_cases h : signedArea ps = 0
  · rw [if_pos h, if_pos (by rw [h]; ring)]; rfl
  · rw [if_neg h, if_neg (by simp [hm, h])]
    simp only [Option.map_some, Affine.apply, Option.some.injEq, P2.mk.injEq]
    constructor <;> field_simp

/-- C42: the centroid does not depend on the starting vertex or direction of the vertex list, and
moves with the polygon. -/
theorem C42_invariance (ps : List Pt) :
    (∀ k, centroid (ps.rotate k) = centroid ps) ∧
    centroid ps.reverse = centroid ps ∧
    (∀ v, centroid (ps.map (Pt.shift v)) = (centroid ps).map (Pt.shift v)) := by
  refine ⟨fun k => ?_, ?_, fun v => ?_⟩
  · rw [centroid_eq, centroid_eq, signedArea_rotate]
    unfold momX momY
    rw [ringSum_rotate, ringSum_rotate]
  · have hx : momX ps.reverse = - momX ps := by
      unfold momX
      rw [ringSum_reverse, ← ringSum_neg]
      exact sum_congr_edges _ _ _ fun a b _ => by unfold cross; ring
    have hy : momY ps.reverse = - momY ps := by
      unfold momY
      rw [ringSum_reverse, ← ringSum_neg]
      exact sum_congr_edges _ _ _ fun a b _ => by unfold cross; ring
    rw [centroid_eq, centroid_eq, signedArea_reverse, hx, hy]
    by_cases h : signedArea ps = 0
    · rw [if_pos h, if_pos (by rw [h, neg_zero])]
    · rw [if_neg h, if_neg (by simpa using h)]
      simp only [mul_neg, neg_div_neg_eq]
  · have e : Pt.shift v = Affine.apply ⟨1, 0, v.x, 0, 1, v.y⟩ := by
      funext p; simp [Pt.shift, Affine.apply]
    rw [e]
    exact C42_affine_equivariant ps _ (by norm_num [Affine.det])

/-- C42: the centroid is defined exactly when the signed area is not zero. -/
theorem C42_defined (ps : List Pt) : (centroid ps).isSome = true ↔ signedArea ps ≠ 0 := by
  rw [centroid_eq]
  by_cases h : signedArea ps = 0 <;> simp [h]

/-- C42: the centroid of a triangle is the mean of its corners. -/
theorem C42_triangle (a b c : Pt) (h : signedArea [a, b, c] ≠ 0) :
    centroid [a, b, c] = some ⟨(a.x + b.x + c.x) / 3, (a.y + b.y + c.y) / 3⟩ := by
  rw [centroid_eq, if_neg h]
  have hx : momX [a, b, c] = 2 * (a.x + b.x + c.x) * signedArea [a, b, c] := by
    unfold momX signedArea
    simp only [ringSum, pathSum, List.cons_append, List.nil_append, cross]; ring
  have hy : momY [a, b, c] = 2 * (a.y + b.y + c.y) * signedArea [a, b, c] := by
    unfold momY signedArea
    simp only [ringSum, pathSum, List.cons_append, List.nil_append, cross]; ring
  rw [hx, hy]
  simp only [Option.some.injEq, P2.mk.injEq]
  constructor <;> field_simp <;> ring

/-- C42: if a polygon is cut in two along a path, its centroid is the mean of the centroids of the
pieces weighted by their signed areas. -/
theorem C42_cut (u v : Pt) (as bs cs : List Pt) (c c1 c2 : Pt)
    (h : centroid (u :: as ++ v :: bs) = some c)
    (h1 : centroid (u :: as ++ v :: cs.reverse) = some c1)
    (h2 : centroid (u :: cs ++ v :: bs) = some c2) :
    let S := signedArea (u :: as ++ v :: bs)
    let S1 := signedArea (u :: as ++ v :: cs.reverse)
    let S2 := signedArea (u :: cs ++ v :: bs)
    S * c.x = S1 * c1.x + S2 * c2.x ∧ S * c.y = S1 * c1.y + S2 * c2.y := by
  have key : ∀ (ps : List Pt) (c : Pt), centroid ps = some c →
      signedArea ps * c.x = momX ps / 6 ∧ signedArea ps * c.y = momY ps / 6 := by
    intro ps c h
    rw [centroid_eq] at h
    by_cases hz : signedArea ps = 0
    · rw [if_pos hz] at h; cases h
    · rw [if_neg hz] at h
      simp only [Option.some.injEq] at h
      subst h
      constructor <;> field_simp
  intro S S1 S2
  obtain ⟨k1, k2⟩ := key _ _ h
  obtain ⟨l1, l2⟩ := key _ _ h1
  obtain ⟨m1, m2⟩ := key _ _ h2
  have hx : momX (u :: as ++ v :: bs) = momX (u :: as ++ v :: cs.reverse) + momX (u :: cs ++ v :: bs) :=
    ringSum_cut _ (fun a b => by unfold cross; ring) u v as bs cs
  have hy : momY (u :: as ++ v :: bs) = momY (u :: as ++ v :: cs.reverse) + momY (u :: cs ++ v :: bs) :=
    ringSum_cut _ (fun a b => by unfold cross; ring) u v as bs cs
  refine ⟨?_, ?_⟩
  · show signedArea (u :: as ++ v :: bs) * c.x = _
    rw [k1, hx, add_div, ← l1, ← m1]
  · show signedArea (u :: as ++ v :: bs) * c.y = _
    rw [k2, hy, add_div, ← l2, ← m2]

example : centroid exSquare = some ⟨1 / 2, 1 / 2⟩ ∧
    centroid ((⟨0, 0⟩ : Pt) :: [⟨1, 0⟩] ++ ⟨1, 1⟩ :: [⟨0, 1⟩]) = some ⟨1 / 2, 1 / 2⟩ ∧
    centroid ((⟨0, 0⟩ : Pt) :: [⟨1, 0⟩] ++ ⟨1, 1⟩ :: ([] : List Pt).reverse) = some ⟨2 / 3, 1 / 3⟩ ∧
    centroid ((⟨0, 0⟩ : Pt) :: [] ++ ⟨1, 1⟩ :: [⟨0, 1⟩]) = some ⟨1 / 3, 2 / 3⟩ := by
  decide +kernel

end Karta.Vec
