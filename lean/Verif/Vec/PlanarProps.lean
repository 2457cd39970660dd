import Verif.Vec.Planar
import Verif.Vec.BasicLemmas
import Mathlib.Algebra.Order.Field.Basic
import Mathlib.Tactic.FieldSimp
import Mathlib.Tactic.LinearCombination

/-!
Properties C32 (bounding boxes), C33 (box overlap), C34, C35 (planar intersections) and
C37 (collinear overlap).
-/

namespace Karta.Vec

/-! ### Specification -/

/-- Spec: `b` is the smallest closed box around `ps`: it contains every point, and every box that
contains every point contains `b`. -/
def TightBox (b : Box) (ps : List Pt) : Prop :=
  (∀ p ∈ ps, b.Contains p) ∧
  ∀ c : Box, (∀ p ∈ ps, c.Contains p) →
    c.xmin ≤ b.xmin ∧ c.ymin ≤ b.ymin ∧ b.xmax ≤ c.xmax ∧ b.ymax ≤ c.ymax

/-- Spec: a box with non-negative width and height. -/
def Box.WF (b : Box) : Prop := b.xmin ≤ b.xmax ∧ b.ymin ≤ b.ymax

/-- Spec: the point lies on the closed segment. -/
def Seg.On (s : Seg) (p : Pt) : Prop :=
  ∃ t : ℚ, 0 ≤ t ∧ t ≤ 1 ∧ p.x = s.a.x + t * (s.b.x - s.a.x) ∧ p.y = s.a.y + t * (s.b.y - s.a.y)

/-- Spec: the point lies on the segment strictly between its end points. -/
def Seg.Interior (s : Seg) (p : Pt) : Prop :=
  ∃ t : ℚ, 0 < t ∧ t < 1 ∧ p.x = s.a.x + t * (s.b.x - s.a.x) ∧ p.y = s.a.y + t * (s.b.y - s.a.y)

/-- Spec: the directions of the segments are parallel (a segment of length zero is parallel to
everything). -/
def Seg.Parallel (s r : Seg) : Prop :=
  (s.b.x - s.a.x) * (r.b.y - r.a.y) = (s.b.y - s.a.y) * (r.b.x - r.a.x)

/-- Spec: `s` is one of the boundary segments of a vertex list, joining consecutive vertices, or,
for a ring, the last vertex to the first. -/
def IsSegment (ring : Bool) (ps : List Pt) (s : Seg) : Prop :=
  (∃ i, ps[i]? = some s.a ∧ ps[i + 1]? = some s.b) ∨
  (ring = true ∧ ps.getLast? = some s.a ∧ ps.head? = some s.b)

/-! ### Bounding boxes -/

/-- C32: the bounding box of a non-empty vertex list contains every vertex, is the smallest such
box, and has a vertex on each of its four sides. -/
theorem C32_bbox_tight (ps : List Pt) (hne : ps ≠ []) :
    ∃ b, bbox ps = some b ∧ TightBox b ps ∧
      (∃ p ∈ ps, p.x = b.xmin) ∧ (∃ p ∈ ps, p.x = b.xmax) ∧
      (∃ p ∈ ps, p.y = b.ymin) ∧ (∃ p ∈ ps, p.y = b.ymax) := by
  cases ps with
  | nil => exact absurd rfl hne
  | cons q qs =>
    refine ⟨_, rfl, ?_⟩
    have hc := bbox_contains (ps := q :: qs) rfl
    obtain ⟨_, _, h6, h7, h8, h9⟩ := foldl_bbox qs ⟨q.x, q.y, q.x, q.y⟩
    have e1 : ∃ p ∈ q :: qs, p.x = (qs.foldl bboxStep ⟨q.x, q.y, q.x, q.y⟩).xmin := by
      rcases h6 with h | ⟨p, hp, e⟩
      · exact ⟨q, by simp, h.symm⟩
      · exact ⟨p, by simp [hp], e⟩
    have e2 : ∃ p ∈ q :: qs, p.x = (qs.foldl bboxStep ⟨q.x, q.y, q.x, q.y⟩).xmax := by
      rcases h7 with h | ⟨p, hp, e⟩
      · exact ⟨q, by simp, h.symm⟩
      · exact ⟨p, by simp [hp], e⟩
    have e3 : ∃ p ∈ q :: qs, p.y = (qs.foldl bboxStep ⟨q.x, q.y, q.x, q.y⟩).ymin := by
      rcases h8 with h | ⟨p, hp, e⟩
      · exact ⟨q, by simp, h.symm⟩
      · exact ⟨p, by simp [hp], e⟩
    have e4 : ∃ p ∈ q :: qs, p.y = (qs.foldl bboxStep ⟨q.x, q.y, q.x, q.y⟩).ymax := by
      rcases h9 with h | ⟨p, hp, e⟩
      · exact ⟨q, by simp, h.symm⟩
      · exact ⟨p, by simp [hp], e⟩
    refine ⟨⟨hc, ?_⟩, e1, e2, e3, e4⟩
    intro c hcc
    obtain ⟨p1, m1, q1⟩ := e1
    obtain ⟨p2, m2, q2⟩ := e2
    obtain ⟨p3, m3, q3⟩ := e3
    obtain ⟨p4, m4, q4⟩ := e4
    rw [← q1, ← q2, ← q3, ← q4]
    exact ⟨(hcc p1 m1).1, (hcc p3 m3).2.2.1, (hcc p2 m2).2.1, (hcc p4 m4).2.2.2⟩

/-- C32: an empty vertex list has no bounding box (the code returns NaNs). -/
theorem C32_bbox_empty (ps : List Pt) : bbox ps = none ↔ ps = [] := by
  cases ps <;> simp [bbox]

example : bbox [⟨1, 2⟩, ⟨-1, 5⟩, ⟨0, 0⟩] = some ⟨-1, 0, 1, 5⟩ := by decide +kernel

theorem foldl_min_le (l : List ℚ) (x : ℚ) : l.foldl min x ≤ x ∧ ∀ y ∈ l, l.foldl min x ≤ y := by
  induction l generalizing x with
  | nil => simp
  | cons a l ih =>
    obtain ⟨h1, h2⟩ := ih (min x a)
    simp only [List.foldl_cons, List.mem_cons, forall_eq_or_imp]
    exact ⟨le_trans h1 (min_le_left _ _), le_trans h1 (min_le_right _ _), h2⟩

theorem foldl_min_mem (l : List ℚ) (x : ℚ) : l.foldl min x = x ∨ l.foldl min x ∈ l := by
  induction l generalizing x with
  | nil => simp
  | cons a l ih =>
    simp only [List.foldl_cons, List.mem_cons]
    rcases ih (min x a) with h | h
    · rcases min_choice x a with e | e <;> rw [h, e] <;> simp
    · exact Or.inr (Or.inr h)

theorem foldl_max_le (l : List ℚ) (x : ℚ) : x ≤ l.foldl max x ∧ ∀ y ∈ l, y ≤ l.foldl max x := by
  induction l generalizing x with
  | nil => simp
  | cons a l ih =>
    obtain ⟨h1, h2⟩ := ih (max x a)
    simp only [List.foldl_cons, List.mem_cons, forall_eq_or_imp]
    exact ⟨le_trans (le_max_left _ _) h1, le_trans (le_max_right _ _) h1, h2⟩

theorem foldl_max_mem (l : List ℚ) (x : ℚ) : l.foldl max x = x ∨ l.foldl max x ∈ l := by
  induction l generalizing x with
  | nil => simp
  | cons a l ih =>
    simp only [List.foldl_cons, List.mem_cons]
    rcases ih (max x a) with h | h
    · rcases max_choice x a with e | e <;> rw [h, e] <;> simp
    · exact Or.inr (Or.inr h)

/-- C32, multipart geometries: the box computed from the members' boxes is the tight box of all
the members' vertices together. -/
theorem C32_multipart_bbox_tight (parts : List (List Pt)) (boxes : List Box)
    (hb : parts.map bbox = boxes.map some) (hne : parts ≠ []) :
    ∃ b, multiBbox boxes = .ok b ∧ TightBox b parts.flatten := by
  have hbox : ∀ c ∈ boxes, ∃ ps ∈ parts, bbox ps = some c := by
    intro c hc
    have : some c ∈ parts.map bbox := by rw [hb]; exact List.mem_map_of_mem hc
    obtain ⟨ps, h1, h2⟩ := List.mem_map.1 this
    exact ⟨ps, h1, h2⟩
  have hpart : ∀ ps ∈ parts, ∃ c ∈ boxes, bbox ps = some c := by
    intro ps hp
    have : bbox ps ∈ boxes.map some := by rw [← hb]; exact List.mem_map_of_mem hp
    obtain ⟨c, h1, h2⟩ := List.mem_map.1 this
    exact ⟨c, h1, h2.symm⟩
  cases boxes with
  | nil => cases parts with
    | nil => exact absurd rfl hne
    | cons => simp at hb
  | cons b bs =>
    refine ⟨_, rfl, ?_, ?_⟩
    · intro p hp
      obtain ⟨ps, hps, hpp⟩ := List.mem_flatten.1 hp
      obtain ⟨c, hc, hcb⟩ := hpart ps hps
      obtain ⟨k1, k2, k3, k4⟩ := bbox_contains hcb p hpp
      have aux : ∀ c ∈ b :: bs,
          (bs.map Box.xmin).foldl min b.xmin ≤ c.xmin ∧
          c.xmax ≤ (bs.map Box.xmax).foldl max b.xmax ∧
          (bs.map Box.ymin).foldl min b.ymin ≤ c.ymin ∧
          c.ymax ≤ (bs.map Box.ymax).foldl max b.ymax := by
        intro c hc
        rcases List.mem_cons.1 hc with rfl | hc
        · exact ⟨(foldl_min_le _ _).1, (foldl_max_le _ _).1, (foldl_min_le _ _).1,
            (foldl_max_le _ _).1⟩
        · exact ⟨(foldl_min_le _ _).2 _ (List.mem_map_of_mem hc),
            (foldl_max_le _ _).2 _ (List.mem_map_of_mem hc),
            (foldl_min_le _ _).2 _ (List.mem_map_of_mem hc),
            (foldl_max_le _ _).2 _ (List.mem_map_of_mem hc)⟩
      obtain ⟨l1, l2, l3, l4⟩ := aux c hc
      exact ⟨le_trans l1 k1, le_trans k2 l2, le_trans l3 k3, le_trans k4 l4⟩
    · intro c hcc
      have key : ∀ d ∈ b :: bs, c.xmin ≤ d.xmin ∧ c.ymin ≤ d.ymin ∧ d.xmax ≤ c.xmax ∧
          d.ymax ≤ c.ymax := by
        intro d hd
        obtain ⟨ps, hps, hbb⟩ := hbox d hd
        have hpne : ps ≠ [] := by rintro rfl; simp [bbox] at hbb
        obtain ⟨d', hd', ht, _⟩ := C32_bbox_tight ps hpne
        rw [hbb] at hd'; cases hd'
        exact ht.2 c (fun p hp => hcc p (List.mem_flatten.2 ⟨ps, hps, hp⟩))
      have hb0 := key b (by simp)
      refine ⟨?_, ?_, ?_, ?_⟩
      · rcases foldl_min_mem (bs.map Box.xmin) b.xmin with h | h
        · simp only [h]; exact hb0.1
        · obtain ⟨d, hd, e⟩ := List.mem_map.1 h
          simp only [← e]; exact (key d (by simp [hd])).1
      · rcases foldl_min_mem (bs.map Box.ymin) b.ymin with h | h
        · simp only [h]; exact hb0.2.1
        · obtain ⟨d, hd, e⟩ := List.mem_map.1 h
          simp only [← e]; exact (key d (by simp [hd])).2.1
      · rcases foldl_max_mem (bs.map Box.xmax) b.xmax with h | h
        · simp only [h]; exact hb0.2.2.1
        · obtain ⟨d, hd, e⟩ := List.mem_map.1 h
          simp only [← e]; exact (key d (by simp [hd])).2.2.1
      · rcases foldl_max_mem (bs.map Box.ymax) b.ymax with h | h
        · simp only [h]; exact hb0.2.2.2
        · obtain ⟨d, hd, e⟩ := List.mem_map.1 h
          simp only [← e]; exact (key d (by simp [hd])).2.2.2

example : (multiBbox [⟨0, 0, 1, 1⟩, ⟨2, -3, 3, 0⟩]).toOption = some ⟨0, -3, 3, 1⟩ := by
  decide +kernel

/-! ### Overlap of boxes -/

theorem overlapWidth_eq_zero (d : ℚ) : overlapWidth d = 0 ↔ d < 0 := by
  unfold overlapWidth
  by_cases h0 : d = 0
  · simp [h0]
  · by_cases h1 : d < 0
    · simp [h0, h1]
    · simp [h0, h1]

theorem overlap_iff_common (a b : Box) (ha : a.WF) (hb : b.WF) :
    (a.xmin ≤ b.xmax ∧ b.xmin ≤ a.xmax ∧ a.ymin ≤ b.ymax ∧ b.ymin ≤ a.ymax) ↔
      ∃ p : Pt, a.Contains p ∧ b.Contains p := by
  constructor
  · rintro ⟨h1, h2, h3, h4⟩
    refine ⟨⟨max a.xmin b.xmin, max a.ymin b.ymin⟩, ⟨le_max_left _ _, ?_, le_max_left _ _, ?_⟩,
      ⟨le_max_right _ _, ?_, le_max_right _ _, ?_⟩⟩
    · exact max_le ha.1 h2
    · exact max_le ha.2 h4
    · exact max_le h1 hb.1
    · exact max_le h3 hb.2
  · rintro ⟨p, ⟨h1, h2, h3, h4⟩, ⟨k1, k2, k3, k4⟩⟩
    exact ⟨le_trans h1 k2, le_trans k1 h2, le_trans h3 k4, le_trans k3 h4⟩

/-- C33: two boxes are reported as overlapping exactly when they have a common point (so boxes
that only touch do overlap), and the answer does not depend on their order. -/
theorem C33_bboxes_overlap_exact (a b : Box) (ha : a.WF) (hb : b.WF) :
    (bboxesOverlap a b = true ↔ ∃ p : Pt, a.Contains p ∧ b.Contains p) ∧
    bboxesOverlap a b = bboxesOverlap b a := by
  have key : ∀ a b : Box, a.WF → b.WF →
      (bboxesOverlap a b = true ↔ ∃ p : Pt, a.Contains p ∧ b.Contains p) := by
    intro a b ha hb
    rw [← overlap_iff_common a b ha hb]
    unfold bboxesOverlap
    simp only [mul_eq_zero, overlapWidth_eq_zero]
    obtain ⟨ha1, ha2⟩ := ha
    obtain ⟨hb1, hb2⟩ := hb
    have hx : min a.xmax b.xmax - max a.xmin b.xmin < 0 ↔
        ¬ (a.xmin ≤ b.xmax ∧ b.xmin ≤ a.xmax) := by
      rw [sub_neg, min_lt_iff, lt_max_iff, lt_max_iff, not_and_or, not_le, not_le]
      constructor
      · rintro ((h | h) | (h | h))
        · exact absurd h (not_lt.2 ha1)
        · exact Or.inr h
        · exact Or.inl h
        · exact absurd h (not_lt.2 hb1)
      · rintro (h | h)
        · exact Or.inr (Or.inl h)
        · exact Or.inl (Or.inr h)
    have hy : min a.ymax b.ymax - max a.ymin b.ymin < 0 ↔
        ¬ (a.ymin ≤ b.ymax ∧ b.ymin ≤ a.ymax) := by
      rw [sub_neg, min_lt_iff, lt_max_iff, lt_max_iff, not_and_or, not_le, not_le]
      constructor
      · rintro ((h | h) | (h | h))
        · exact absurd h (not_lt.2 ha2)
        · exact Or.inr h
        · exact Or.inl h
        · exact absurd h (not_lt.2 hb2)
      · rintro (h | h)
        · exact Or.inr (Or.inl h)
        · exact Or.inl (Or.inr h)
    simp only [hx, hy]
    by_cases h1 : a.xmin ≤ b.xmax ∧ b.xmin ≤ a.xmax
    · by_cases h2 : a.ymin ≤ b.ymax ∧ b.ymin ≤ a.ymax
      · simp [h1, h2]
      · simp only [h2, not_false_iff, or_true, if_true]
        constructor
        · intro h; exact absurd h (by decide)
        · simp
    · simp only [h1, not_false_iff, true_or, if_true]
      constructor
      · intro h; exact absurd h (by decide)
      · rintro ⟨k1, k2, _⟩; exact absurd ⟨k1, k2⟩ h1
  refine ⟨key a b ha hb, ?_⟩
  rw [Bool.eq_iff_iff, key a b ha hb, key b a hb ha]
  exact ⟨fun ⟨p, h, k⟩ => ⟨p, k, h⟩, fun ⟨p, h, k⟩ => ⟨p, k, h⟩⟩

/-- C33: the overlap test used by the geometry classes agrees with the compiled one. -/
theorem C33_method_agrees (a b : Box) (ha : a.WF) (hb : b.WF) :
    bboxOverlapMethod a b = bboxesOverlap a b := by
  rw [Bool.eq_iff_iff, (C33_bboxes_overlap_exact a b ha hb).1, ← overlap_iff_common a b ha hb]
  simp [bboxOverlapMethod]

/-- C33 applies to every box computed from vertices. -/
theorem C33_bbox_wf (ps : List Pt) (b : Box) (h : bbox ps = some b) : b.WF := by
  cases ps with
  | nil => simp [bbox] at h
  | cons q qs =>
    obtain ⟨k1, k2, k3, k4⟩ := bbox_contains h q (by simp)
    exact ⟨le_trans k1 k2, le_trans k3 k4⟩

example : bboxesOverlap ⟨0, 0, 1, 1⟩ ⟨1, 1, 2, 2⟩ = true ∧
    bboxesOverlap ⟨0, 0, 1, 1⟩ ⟨2, 0, 3, 1⟩ = false ∧
    Box.WF ⟨0, 0, 1, 1⟩ ∧ Box.WF ⟨1, 1, 2, 2⟩ := by
  refine ⟨by decide +kernel, by decide +kernel, ?_, ?_⟩ <;> constructor <;> norm_num

/-! ### Intersection of two segments -/

theorem intersection_mk (x0 y0 x1 y1 x2 y2 x3 y3 : ℚ) :
    intersection ⟨⟨x0, y0⟩, ⟨x1, y1⟩⟩ ⟨⟨x2, y2⟩, ⟨x3, y3⟩⟩ =
    if (x1 - x0) * (y3 - y2) - (y1 - y0) * (x3 - x2) = 0 then none
    else if (0 < ((x2 - x0) * (y3 - y2) - (y2 - y0) * (x3 - x2)) /
              ((x1 - x0) * (y3 - y2) - (y1 - y0) * (x3 - x2)) ∧
            ((x2 - x0) * (y3 - y2) - (y2 - y0) * (x3 - x2)) /
              ((x1 - x0) * (y3 - y2) - (y1 - y0) * (x3 - x2)) ≤ 1) ∧
          0 < ((x2 - x0) * (y1 - y0) - (y2 - y0) * (x1 - x0)) /
              ((x1 - x0) * (y3 - y2) - (y1 - y0) * (x3 - x2)) ∧
            ((x2 - x0) * (y1 - y0) - (y2 - y0) * (x1 - x0)) /
              ((x1 - x0) * (y3 - y2) - (y1 - y0) * (x3 - x2)) ≤ 1
      then some ⟨x0 + ((x2 - x0) * (y3 - y2) - (y2 - y0) * (x3 - x2)) /
              ((x1 - x0) * (y3 - y2) - (y1 - y0) * (x3 - x2)) * (x1 - x0),
            y0 + ((x2 - x0) * (y3 - y2) - (y2 - y0) * (x3 - x2)) /
              ((x1 - x0) * (y3 - y2) - (y1 - y0) * (x3 - x2)) * (y1 - y0)⟩
      else none := rfl

/-- C34: the intersection routine reports the point `p` exactly when the segments are not
parallel and `p` lies on both of them and is the starting point of neither. -/
theorem C34_intersection_exact (s r : Seg) (p : Pt) :
    intersection s r = some p ↔
      ¬ s.Parallel r ∧ s.On p ∧ r.On p ∧ p ≠ s.a ∧ p ≠ r.a := by
  obtain ⟨⟨x0, y0⟩, ⟨x1, y1⟩⟩ := s
  obtain ⟨⟨x2, y2⟩, ⟨x3, y3⟩⟩ := r
  obtain ⟨px, py⟩ := p
  rw [intersection_mk]
  simp only [Seg.Parallel, Seg.On, ne_eq, P2.mk.injEq]
  by_cases hd : (x1 - x0) * (y3 - y2) - (y1 - y0) * (x3 - x2) = 0
  · rw [if_pos hd]
    have : (x1 - x0) * (y3 - y2) = (y1 - y0) * (x3 - x2) := sub_eq_zero.1 hd
    simp [this]
  · rw [if_neg hd]
    have hd' : ¬ (x1 - x0) * (y3 - y2) = (y1 - y0) * (x3 - x2) := fun h => hd (sub_eq_zero.2 h)
    set D := (x1 - x0) * (y3 - y2) - (y1 - y0) * (x3 - x2) with hD
    set t := ((x2 - x0) * (y3 - y2) - (y2 - y0) * (x3 - x2)) / D with ht
    set u := ((x2 - x0) * (y1 - y0) - (y2 - y0) * (x1 - x0)) / D with hu
    have htD : t * D = (x2 - x0) * (y3 - y2) - (y2 - y0) * (x3 - x2) := div_mul_cancel₀ _ hd
    have huD : u * D = (x2 - x0) * (y1 - y0) - (y2 - y0) * (x1 - x0) := div_mul_cancel₀ _ hd
    have hx : x0 + t * (x1 - x0) = x2 + u * (x3 - x2) := by
      apply mul_right_cancel₀ hd
      linear_combination (x1 - x0) * htD - (x3 - x2) * huD + (x0 - x2) * hD
    have hy : y0 + t * (y1 - y0) = y2 + u * (y3 - y2) := by
      apply mul_right_cancel₀ hd
      linear_combination (y1 - y0) * htD - (y3 - y2) * huD + (y0 - y2) * hD
    constructor
    · intro h
      by_cases hc : (0 < t ∧ t ≤ 1) ∧ 0 < u ∧ u ≤ 1
      · rw [if_pos hc] at h
        simp only [Option.some.injEq, P2.mk.injEq] at h
        obtain ⟨e1, e2⟩ := h
        obtain ⟨⟨t0, t1⟩, u0, u1⟩ := hc
        refine ⟨hd', ⟨t, t0.le, t1, e1.symm, e2.symm⟩,
          ⟨u, u0.le, u1, by rw [← hx, e1], by rw [← hy, e2]⟩, ?_, ?_⟩
        · rintro ⟨k1, k2⟩
          have m1 : t * (x1 - x0) = 0 := by linarith
          have m2 : t * (y1 - y0) = 0 := by linarith
          have n1 := (mul_eq_zero.1 m1).resolve_left t0.ne'
          have n2 := (mul_eq_zero.1 m2).resolve_left t0.ne'
          apply hd; rw [hD, n1, n2]; ring
        · rintro ⟨k1, k2⟩
          have m1 : u * (x3 - x2) = 0 := by linarith
          have m2 : u * (y3 - y2) = 0 := by linarith
          have n1 := (mul_eq_zero.1 m1).resolve_left u0.ne'
          have n2 := (mul_eq_zero.1 m2).resolve_left u0.ne'
          apply hd; rw [hD, n1, n2]; ring
      · rw [if_neg hc] at h; cases h
    · rintro ⟨_, ⟨t', t0, t1, e1, e2⟩, ⟨u', u0, u1, f1, f2⟩, ns, nr⟩
      have et : t = t' := by
        apply mul_right_cancel₀ hd
        rw [htD, hD]
        have g1 : x0 + t' * (x1 - x0) = x2 + u' * (x3 - x2) := by rw [← e1, ← f1]
        have g2 : y0 + t' * (y1 - y0) = y2 + u' * (y3 - y2) := by rw [← e2, ← f2]
        linear_combination (-(y3 - y2)) * g1 + (x3 - x2) * g2
      have eu : u = u' := by
        apply mul_right_cancel₀ hd
        rw [huD, hD]
        have g1 : x0 + t' * (x1 - x0) = x2 + u' * (x3 - x2) := by rw [← e1, ← f1]
        have g2 : y0 + t' * (y1 - y0) = y2 + u' * (y3 - y2) := by rw [← e2, ← f2]
        linear_combination (-(y1 - y0)) * g1 + (x1 - x0) * g2
      have tp : 0 < t := by
        rcases lt_or_eq_of_le t0 with h | h
        · rw [et]; exact h
        · exact absurd ⟨by rw [e1, ← h]; ring, by rw [e2, ← h]; ring⟩ ns
      have up : 0 < u := by
        rcases lt_or_eq_of_le u0 with h | h
        · rw [eu]; exact h
        · exact absurd ⟨by rw [f1, ← h]; ring, by rw [f2, ← h]; ring⟩ nr
      rw [if_pos ⟨⟨tp, by rw [et]; exact t1⟩, up, by rw [eu]; exact u1⟩]
      simp only [Option.some.injEq, P2.mk.injEq]
      rw [et]; exact ⟨e1.symm, e2.symm⟩

theorem Seg.Interior.on {s : Seg} {p : Pt} (h : s.Interior p) : s.On p := by
  obtain ⟨t, h0, h1, e1, e2⟩ := h
  exact ⟨t, h0.le, h1.le, e1, e2⟩

theorem interior_ne_start {s r : Seg} {p : Pt} (hp : ¬ s.Parallel r) (h : s.Interior p) :
    p ≠ s.a := by
  rintro rfl
  obtain ⟨t, h0, h1, e1, e2⟩ := h
  have m1 : t * (s.b.x - s.a.x) = 0 := by linarith
  have m2 : t * (s.b.y - s.a.y) = 0 := by linarith
  have n1 := (mul_eq_zero.1 m1).resolve_left h0.ne'
  have n2 := (mul_eq_zero.1 m2).resolve_left h0.ne'
  apply hp; unfold Seg.Parallel; rw [n1, n2]; ring

theorem Seg.Parallel.symm {s r : Seg} (h : s.Parallel r) : r.Parallel s := by
  unfold Seg.Parallel at *; linarith

/-- C34: a reported point lies on both segments; a crossing in the interior of both segments is
always reported; nothing is reported for parallel segments; the order of the two segments does not
matter. -/
theorem C34_intersection_sound (s r : Seg) :
    (∀ p, intersection s r = some p → s.On p ∧ r.On p) ∧
    (∀ p, ¬ s.Parallel r → s.Interior p → r.Interior p → intersection s r = some p) ∧
    (s.Parallel r → intersection s r = none) ∧
    intersection s r = intersection r s := by
  refine ⟨?_, ?_, ?_, ?_⟩
  · intro p h
    obtain ⟨_, h1, h2, _⟩ := (C34_intersection_exact s r p).1 h
    exact ⟨h1, h2⟩
  · intro p hp h1 h2
    exact (C34_intersection_exact s r p).2 ⟨hp, h1.on, h2.on, interior_ne_start hp h1,
      interior_ne_start (fun h => hp h.symm) h2⟩
  · intro hp
    rw [Option.eq_none_iff_forall_ne_some]
    intro p h
    exact ((C34_intersection_exact s r p).1 h).1 hp
  · ext p
    rw [C34_intersection_exact, C34_intersection_exact]
    constructor
    · rintro ⟨h, a, b, c, d⟩; exact ⟨fun k => h k.symm, b, a, d, c⟩
    · rintro ⟨h, a, b, c, d⟩; exact ⟨fun k => h k.symm, b, a, d, c⟩

example : intersection ⟨⟨0, 0⟩, ⟨2, 2⟩⟩ ⟨⟨0, 2⟩, ⟨2, 0⟩⟩ = some ⟨1, 1⟩ := by decide +kernel
/-- An end point shared by the two starting points is not reported. -/
example : intersection ⟨⟨0, 0⟩, ⟨1, 1⟩⟩ ⟨⟨0, 0⟩, ⟨1, 0⟩⟩ = none := by decide +kernel

/-! ### All intersections -/

theorem mem_segsOf (ring : Bool) (ps : List Pt) (s : Seg) :
    s ∈ segsOf ring ps ↔ IsSegment ring ps s := by
  have open_case : s ∈ List.zipWith Seg.mk ps ps.tail ↔
      ∃ i, ps[i]? = some s.a ∧ ps[i + 1]? = some s.b := by
    obtain ⟨a, b⟩ := s
    rw [List.mem_iff_getElem?]
    constructor
    · rintro ⟨i, h⟩
      rw [List.getElem?_zipWith_eq_some] at h
      obtain ⟨x, y, h1, h2, h3⟩ := h
      cases h3
      rw [List.getElem?_tail] at h2
      exact ⟨i, h1, h2⟩
    · rintro ⟨i, h1, h2⟩
      refine ⟨i, ?_⟩
      rw [List.getElem?_zipWith_eq_some]
      exact ⟨a, b, h1, by rw [List.getElem?_tail]; exact h2, rfl⟩
  cases ring with
  | false => simpa [segsOf, IsSegment] using open_case
  | true =>
    simp only [segsOf, if_true, IsSegment, true_and]
    cases ps with
    | nil => simp
    | cons q qs =>
      have hrot : (q :: qs).rotate 1 = qs ++ [q] := by simp
      rw [hrot]
      obtain ⟨a, b⟩ := s
      rw [List.mem_iff_getElem?]
      constructor
      · rintro ⟨i, h⟩
        rw [List.getElem?_zipWith_eq_some] at h
        obtain ⟨x, y, h1, h2, h3⟩ := h
        cases h3
        rcases Nat.lt_or_ge i qs.length with hi | hi
        · left
          rw [List.getElem?_append_left hi] at h2
          exact ⟨i, h1, by simpa using h2⟩
        · right
          have : i < (q :: qs).length := (List.getElem?_eq_some_iff.1 h1).1
          have hi' : i = qs.length := by simp at this; omega
          subst hi'
          rw [List.getElem?_append_right (le_refl _)] at h2
          simp only [Nat.sub_self, List.getElem?_cons_zero, Option.some.injEq] at h2
          refine ⟨?_, by simp [h2]⟩
          rw [List.getLast?_eq_getElem?]
          simpa using h1
      · rintro (⟨i, h1, h2⟩ | ⟨h1, h2⟩)
        · refine ⟨i, ?_⟩
          rw [List.getElem?_zipWith_eq_some]
          refine ⟨a, b, h1, ?_, rfl⟩
          simp only [List.getElem?_cons_succ] at h2
          rw [List.getElem?_append_left (List.getElem?_eq_some_iff.1 h2).1]
          exact h2
        · refine ⟨qs.length, ?_⟩
          rw [List.getElem?_zipWith_eq_some]
          rw [List.getLast?_eq_getElem?] at h1
          refine ⟨a, b, by simpa using h1, ?_, rfl⟩
          rw [List.getElem?_append_right (le_refl _)]
          simpa using h2

/-- C35: a point is listed exactly when it lies on a boundary segment of each geometry, these two
segments are not parallel, and it is not the starting point of either segment.  In particular every
crossing interior to two segments is listed, and every listed point is on both geometries. -/
theorem C35_all_intersections_exact (ra : Bool) (as : List Pt) (rb : Bool) (bs : List Pt) (p : Pt) :
    p ∈ allIntersections ra as rb bs ↔
      ∃ s r, IsSegment ra as s ∧ IsSegment rb bs r ∧
        ¬ s.Parallel r ∧ s.On p ∧ r.On p ∧ p ≠ s.a ∧ p ≠ r.a := by
  simp only [allIntersections, List.mem_flatMap, List.mem_filterMap, mem_segsOf,
    C34_intersection_exact]
  constructor
  · rintro ⟨s, hs, r, hr, h⟩; exact ⟨s, r, hs, hr, h⟩
  · rintro ⟨s, r, hs, hr, h⟩; exact ⟨s, hs, r, hr, h⟩

/-- C35, proper crossings. -/
theorem C35_every_crossing_listed (ra : Bool) (as : List Pt) (rb : Bool) (bs : List Pt) (p : Pt)
    (s r : Seg) (hs : IsSegment ra as s) (hr : IsSegment rb bs r) (hp : ¬ s.Parallel r)
    (h1 : s.Interior p) (h2 : r.Interior p) : p ∈ allIntersections ra as rb bs :=
  (C35_all_intersections_exact ra as rb bs p).2 ⟨s, r, hs, hr, hp, h1.on, h2.on,
    interior_ne_start hp h1, interior_ne_start (fun h => hp h.symm) h2⟩

theorem count_flatMap_filterMap_swap {α β γ : Type} [DecidableEq γ] (f : α → β → Option γ)
    (c : γ) (l : List α) (m : List β) :
    (l.flatMap fun a => m.filterMap fun b => f a b).count c =
    (m.flatMap fun b => l.filterMap fun a => f a b).count c := by
  induction l with
  | nil => induction m with
    | nil => simp
    | cons b m ih => simpa using ih
  | cons a l ih =>
    rw [List.flatMap_cons, List.count_append, ih]
    clear ih
    induction m with
    | nil => simp
    | cons b m ih =>
      rw [List.flatMap_cons, List.flatMap_cons, List.count_append, List.count_append, ← ih]
      cases h : f a b with
      | none =>
        rw [List.filterMap_cons_none (f := fun b => f a b) h, List.filterMap_cons_none (f := fun a => f a b) h]; omega
      | some d =>
        rw [List.filterMap_cons_some (f := fun b => f a b) h, List.filterMap_cons_some (f := fun a => f a b) h,
          List.count_cons, List.count_cons]
        omega

/-- C35: exchanging the two geometries lists the same points, each the same number of times. -/
theorem C35_symmetric (ra : Bool) (as : List Pt) (rb : Bool) (bs : List Pt) :
    (allIntersections ra as rb bs).Perm (allIntersections rb bs ra as) := by
  rw [List.perm_iff_count]
  intro c
  unfold allIntersections
  rw [count_flatMap_filterMap_swap]
  have : ∀ r : Seg, (fun s => intersection s r) = fun s => intersection r s := by
    intro r; funext s; exact (C34_intersection_sound s r).2.2.2
  simp only [this]

example : allIntersections false [⟨0, 0⟩, ⟨4, 4⟩] true [⟨1, 0⟩, ⟨3, 0⟩, ⟨3, 5⟩, ⟨1, 5⟩]
    = [⟨3, 3⟩, ⟨1, 1⟩] := by decide +kernel

/-! ### Collinear overlap -/

/-- Spec: the segments lie on one line and have a point in common. -/
def CollinearOverlap (s r : Seg) : Prop :=
  (∃ a b c : ℚ, (a ≠ 0 ∨ b ≠ 0) ∧
    ∀ p ∈ [s.a, s.b, r.a, r.b], a * p.x + b * p.y = c) ∧
  ∃ p, s.On p ∧ r.On p

theorem cross_zero_line {s r : Seg} (h1 : s.Parallel r)
    (h2 : (s.b.x - s.a.x) * (r.b.y - s.a.y) = (s.b.y - s.a.y) * (r.b.x - s.a.x)) :
    (s.b.x - s.a.x) * (r.a.y - s.a.y) = (s.b.y - s.a.y) * (r.a.x - s.a.x) := by
  unfold Seg.Parallel at h1
  linear_combination h2 - h1

/-- C37, disjoint horizontal segments: the test answers True although the two segments have no
common point. -/
theorem C37_violated_horizontal :
    ∃ s r : Seg, iscollinear s r = true ∧ ¬ CollinearOverlap s r := by
  refine ⟨⟨⟨0, 0⟩, ⟨1, 0⟩⟩, ⟨⟨2, 0⟩, ⟨3, 0⟩⟩, by decide +kernel, ?_⟩
  rintro ⟨_, p, ⟨t, h0, h1, e1, _⟩, ⟨u, k0, k1, f1, _⟩⟩
  simp only at e1 f1
  linarith

/-- C37, identical segments drawn right to left: the test answers False. -/
theorem C37_violated_descending :
    ∃ s r : Seg, iscollinear s r = false ∧ CollinearOverlap s r := by
  refine ⟨⟨⟨1, 1⟩, ⟨0, 0⟩⟩, ⟨⟨1, 1⟩, ⟨0, 0⟩⟩, by decide +kernel, ?_, ⟨1, 1⟩, ⟨0, ?_⟩, ⟨0, ?_⟩⟩
  · refine ⟨1, -1, 0, Or.inl one_ne_zero, ?_⟩
    intro p hp
    simp only [List.mem_cons, List.not_mem_nil, or_false] at hp
    rcases hp with rfl | rfl | rfl | rfl <;> norm_num
  · norm_num
  · norm_num

/-- Overlap of intervals given in order. -/
theorem overlaps_iff {a0 a1 b0 b1 : ℚ} (ha : a0 ≤ a1) (hb : b0 ≤ b1) :
    overlaps a0 a1 b0 b1 = true ↔ a0 ≤ b1 ∧ b0 ≤ a1 := by
  simp only [overlaps, decide_eq_true_eq]
  constructor
  · rintro (⟨h, k⟩ | ⟨h, k⟩ | ⟨h, k⟩ | ⟨h, k⟩)
    · exact ⟨le_trans h hb, k⟩
    · exact ⟨h, le_trans hb k⟩
    · exact ⟨k, le_trans h ha⟩
    · exact ⟨le_trans ha k, h⟩
  · rintro ⟨h, k⟩
    rcases le_total a0 b0 with h1 | h1
    · exact Or.inl ⟨h1, k⟩
    · exact Or.inr (Or.inr (Or.inl ⟨h1, h⟩))

/-- C37 for segments drawn strictly upwards and to the right: the test answers True exactly when
they lie on a common line and share a point.  Missing for the full C37: segments that are
horizontal, vertical or drawn in another direction, for which the test can be wrong (see the two
theorems above). -/
theorem C37_ascending_exact_partial (s r : Seg) (hsx : s.a.x < s.b.x) (hrx : r.a.x ≤ r.b.x)
    (hsy : s.a.y < s.b.y) (hry : r.a.y ≤ r.b.y) :
    iscollinear s r = true ↔ CollinearOverlap s r := by
  have hd : s.b.x - s.a.x ≠ 0 := by intro h; linarith
  unfold iscollinear cross2
  constructor
  · intro h
    by_cases h1 : (s.b.x - s.a.x) * (r.b.y - r.a.y) - (s.b.y - s.a.y) * (r.b.x - r.a.x) = 0
    swap
    · simp only [if_neg h1] at h; cases h
    simp only [if_pos h1] at h
    by_cases h2 : (s.b.x - s.a.x) * (r.b.y - s.a.y) - (s.b.y - s.a.y) * (r.b.x - s.a.x) = 0
    swap
    · simp only [if_neg h2] at h; cases h
    simp only [if_pos h2] at h
    have h3 := cross_zero_line (s := s) (r := r) (by unfold Seg.Parallel; linarith) (by linarith)
    have hd0 : 0 < s.b.x - s.a.x := by linarith
    have hdy : 0 < s.b.y - s.a.y := by linarith
    have hov : s.a.x ≤ r.b.x ∧ r.a.x ≤ s.b.x := by
      by_cases hx : overlaps s.a.x s.b.x r.a.x r.b.x = true
      · exact (overlaps_iff hsx.le hrx).1 hx
      · simp only [hx, and_false, if_false, Bool.false_eq_true] at h
        by_cases hy : overlaps s.a.y s.b.y r.a.y r.b.y = true
        · obtain ⟨k1, k2⟩ := (overlaps_iff hsy.le hry).1 hy
          constructor
          · by_contra hc
            push Not at hc
            nlinarith
          · by_contra hc
            push Not at hc
            nlinarith
        · simp [hy] at h
    refine ⟨⟨s.b.y - s.a.y, -(s.b.x - s.a.x),
      (s.b.y - s.a.y) * s.a.x - (s.b.x - s.a.x) * s.a.y, Or.inl hdy.ne', ?_⟩, ?_⟩
    · intro p hp
      simp only [List.mem_cons, List.not_mem_nil, or_false] at hp
      rcases hp with rfl | rfl | rfl | rfl
      · ring
      · ring
      · linarith
      · linarith
    · -- the common point: the larger of the two left ends
      rcases le_total s.a.x r.a.x with hc | hc
      · refine ⟨r.a, ⟨(r.a.x - s.a.x) / (s.b.x - s.a.x), ?_, ?_, ?_, ?_⟩, ⟨0, le_refl _, zero_le_one, by ring, by ring⟩⟩
        · exact div_nonneg (by linarith) hd0.le
        · rw [div_le_one hd0]; linarith [hov.2]
        · field_simp; ring
        · field_simp; linarith
      · refine ⟨s.a, ⟨0, le_refl _, zero_le_one, by ring, by ring⟩, ?_⟩
        by_cases hr : r.b.x = r.a.x
        · have hx : r.a.x = s.a.x := le_antisymm hc (by rw [← hr]; exact hov.1)
          have hy : r.a.y = s.a.y := by
            rw [hx] at h3
            have : (s.b.x - s.a.x) * (r.a.y - s.a.y) = 0 := by rw [h3]; ring
            have := (mul_eq_zero.1 this).resolve_left hd
            linarith
          exact ⟨0, le_refl _, zero_le_one, by rw [hx]; ring, by rw [hy]; ring⟩
        · have hr0 : 0 < r.b.x - r.a.x := by
            rcases lt_or_eq_of_le hrx with h | h
            · linarith
            · exact absurd h.symm hr
          refine ⟨(s.a.x - r.a.x) / (r.b.x - r.a.x), ?_, ?_, ?_, ?_⟩
          · exact div_nonneg (by linarith) hr0.le
          · rw [div_le_one hr0]; linarith [hov.1]
          · field_simp; ring
          · have e : (s.a.x - r.a.x) / (r.b.x - r.a.x) * (r.b.y - r.a.y)
                = (s.a.x - r.a.x) * ((s.b.y - s.a.y) / (s.b.x - s.a.x)) := by
              field_simp
              linear_combination (s.a.x - r.a.x) * h1
            rw [e]
            field_simp
            linear_combination (-1 : ℚ) * h3
  · rintro ⟨⟨a, b, c, hab, hl⟩, p, ⟨t, t0, t1, e1, e2⟩, ⟨u, u0, u1, f1, f2⟩⟩
    have l1 := hl s.a (by simp)
    have l2 := hl s.b (by simp)
    have l3 := hl r.a (by simp)
    have l4 := hl r.b (by simp)
    have z : ∀ vx vy wx wy : ℚ, a * vx + b * vy = 0 → a * wx + b * wy = 0 →
        vx * wy - vy * wx = 0 := by
      intro vx vy wx wy h k
      rcases hab with ha | hb
      · apply (mul_eq_zero.1 (?_ : a * (vx * wy - vy * wx) = 0)).resolve_left ha
        linear_combination wy * h - vy * k
      · apply (mul_eq_zero.1 (?_ : b * (vx * wy - vy * wx) = 0)).resolve_left hb
        linear_combination vx * k - wx * h
    have h1 := z (s.b.x - s.a.x) (s.b.y - s.a.y) (r.b.x - r.a.x) (r.b.y - r.a.y)
      (by linarith) (by linarith)
    have h2 := z (s.b.x - s.a.x) (s.b.y - s.a.y) (r.b.x - s.a.x) (r.b.y - s.a.y)
      (by linarith) (by linarith)
    have hx : overlaps s.a.x s.b.x r.a.x r.b.x = true := by
      rw [overlaps_iff hsx.le hrx]
      constructor <;> nlinarith
    simp only [if_pos h1, if_pos h2, hx]
    simp [hd]

example : iscollinear ⟨⟨0, 0⟩, ⟨2, 2⟩⟩ ⟨⟨1, 1⟩, ⟨3, 3⟩⟩ = true ∧
    iscollinear ⟨⟨0, 0⟩, ⟨1, 1⟩⟩ ⟨⟨2, 2⟩, ⟨3, 3⟩⟩ = false := by decide +kernel

/-- C37 for a vertical segment drawn upwards, and a second one not drawn downwards: the test answers True
exactly when they lie on a common line and share a point. -/
theorem C37_vertical_exact_partial (s r : Seg) (hsx : s.a.x = s.b.x) (hsy : s.a.y < s.b.y) (hry : r.a.y ≤ r.b.y) :
    iscollinear s r = true ↔ CollinearOverlap s r := by
  have hd0 : s.b.x - s.a.x = 0 := by rw [hsx, sub_self]
  have hy0 : s.b.y - s.a.y ≠ 0 := by intro h; linarith
  have key : iscollinear s r = true ↔ (r.a.x = s.a.x ∧ r.b.x = s.a.x) ∧ s.a.y ≤ r.b.y ∧ r.a.y ≤ s.b.y := by
    unfold iscollinear cross2
    simp only [hd0, zero_mul, zero_sub, neg_eq_zero, mul_eq_zero, hy0, false_or, ne_eq, not_true_eq_false, false_and, if_false]
    rw [← overlaps_iff hsy.le hry]
    by_cases h1 : r.b.x - r.a.x = 0
    · by_cases h2 : r.b.x - s.a.x = 0
      · simp only [if_pos h1, if_pos h2]
        constructor
        · intro h
          refine ⟨⟨by linarith, by linarith⟩, ?_⟩
          by_contra hc
          rw [if_neg hc] at h; cases h
        · rintro ⟨-, h⟩; rw [if_pos h]
      · simp only [if_pos h1, if_neg h2, Bool.false_eq_true, false_iff]
        rintro ⟨⟨-, h⟩, -⟩; exact h2 (by rw [h, sub_self])
    · simp only [if_neg h1, Bool.false_eq_true, false_iff]
      rintro ⟨⟨h, h'⟩, -⟩; exact h1 (by rw [h, h', sub_self])
  rw [key]
  constructor
  · rintro ⟨⟨h1, h2⟩, h3, h4⟩
    refine ⟨⟨1, 0, s.a.x, Or.inl one_ne_zero, ?_⟩, ?_⟩
    · intro p hp
      simp only [List.mem_cons, List.not_mem_nil, or_false] at hp
      rcases hp with rfl | rfl | rfl | rfl <;> linarith
    · have hdy : 0 < s.b.y - s.a.y := by linarith
      rcases le_total s.a.y r.a.y with hc | hc
      · refine ⟨r.a, ⟨(r.a.y - s.a.y) / (s.b.y - s.a.y), ?_, ?_, ?_, ?_⟩, ⟨0, le_refl _, zero_le_one, by ring, by ring⟩⟩
        · exact div_nonneg (by linarith) hdy.le
        · rw [div_le_one hdy]; linarith
        · rw [hd0, mul_zero]; linarith
        · field_simp; ring
      · refine ⟨s.a, ⟨0, le_refl _, zero_le_one, by ring, by ring⟩, ?_⟩
        by_cases hr : r.b.y = r.a.y
        · exact ⟨0, le_refl _, zero_le_one, by linarith, by linarith⟩
        · have hr0 : 0 < r.b.y - r.a.y := by
            rcases lt_or_eq_of_le hry with h | h
            · linarith
            · exact absurd h.symm hr
          refine ⟨(s.a.y - r.a.y) / (r.b.y - r.a.y), ?_, ?_, ?_, ?_⟩
          · exact div_nonneg (by linarith) hr0.le
          · rw [div_le_one hr0]; linarith
          · have : r.b.x - r.a.x = 0 := by linarith
            rw [this, mul_zero]; linarith
          · field_simp; ring
  · rintro ⟨⟨a, b, c, hab, hl⟩, p, ⟨t, t0, t1, e1, e2⟩, ⟨u, u0, u1, f1, f2⟩⟩
    have l1 := hl s.a (by simp)
    have l2 := hl s.b (by simp)
    have l3 := hl r.a (by simp)
    have l4 := hl r.b (by simp)
    have hb : b = 0 := by
      have : b * (s.b.y - s.a.y) = 0 := by rw [hsx] at l1; linarith
      exact (mul_eq_zero.1 this).resolve_right hy0
    have ha : a ≠ 0 := hab.resolve_right (by simp [hb])
    have q : ∀ x : ℚ, a * x = a * s.a.x → x = s.a.x := fun x h => mul_left_cancel₀ ha h
    rw [hb] at l1 l3 l4
    refine ⟨⟨q _ (by linarith), q _ (by linarith)⟩, ?_⟩
    constructor <;> nlinarith

/-- C37: whenever the test answers True for a first segment that is not a single point, the four end points
are on one line. -/
theorem C37_true_on_common_line (s r : Seg) (hs : s.a ≠ s.b) (h : iscollinear s r = true) :
    ∃ a b c : ℚ, (a ≠ 0 ∨ b ≠ 0) ∧ ∀ p ∈ [s.a, s.b, r.a, r.b], a * p.x + b * p.y = c := by
  unfold iscollinear cross2 at h
  by_cases h1 : (s.b.x - s.a.x) * (r.b.y - r.a.y) - (s.b.y - s.a.y) * (r.b.x - r.a.x) = 0
  swap
  · simp only [if_neg h1] at h; cases h
  simp only [if_pos h1] at h
  by_cases h2 : (s.b.x - s.a.x) * (r.b.y - s.a.y) - (s.b.y - s.a.y) * (r.b.x - s.a.x) = 0
  swap
  · simp only [if_neg h2] at h; cases h
  have h3 := cross_zero_line (s := s) (r := r) (by unfold Seg.Parallel; linarith) (by linarith)
  refine ⟨s.b.y - s.a.y, -(s.b.x - s.a.x), (s.b.y - s.a.y) * s.a.x - (s.b.x - s.a.x) * s.a.y, ?_, ?_⟩
  · by_contra hc
    push Not at hc
    apply hs
    cases hsa : s.a; cases hsb : s.b
    simp only [hsa, hsb, neg_eq_zero, sub_eq_zero] at hc
    rw [hc.1, hc.2]
  · intro p hp
    simp only [List.mem_cons, List.not_mem_nil, or_false] at hp
    rcases hp with rfl | rfl | rfl | rfl
    · ring
    · ring
    · linarith
    · linarith

example : iscollinear ⟨⟨1, 0⟩, ⟨1, 2⟩⟩ ⟨⟨1, 1⟩, ⟨1, 3⟩⟩ = true ∧
    iscollinear ⟨⟨1, 0⟩, ⟨1, 1⟩⟩ ⟨⟨1, 2⟩, ⟨1, 3⟩⟩ = false := by decide +kernel

end Karta.Vec
