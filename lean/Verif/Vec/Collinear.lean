import Verif.Vec.PlanarProps

/-!
# The test for collinear segments, by direction

Property C37 for the directions in which both segments can be drawn.
-/

namespace Karta.Vec

/-- The segment mirrored in the x axis. -/
def Seg.flipY (s : Seg) : Seg := ⟨⟨s.a.x, -s.a.y⟩, ⟨s.b.x, -s.b.y⟩⟩
/-- The segment mirrored in the y axis. -/
def Seg.flipX (s : Seg) : Seg := ⟨⟨-s.a.x, s.a.y⟩, ⟨-s.b.x, s.b.y⟩⟩

theorem collinear_flipY {s r : Seg} (h : CollinearOverlap s r) : CollinearOverlap s.flipY r.flipY := by
  obtain ⟨⟨a, b, c, hab, hl⟩, p, ⟨t, t0, t1, e1, e2⟩, ⟨u, u0, u1, f1, f2⟩⟩ := h
  refine ⟨⟨a, -b, c, by simpa using hab, ?_⟩, ⟨p.x, -p.y⟩, ⟨t, t0, t1, e1, ?_⟩, ⟨u, u0, u1, f1, ?_⟩⟩
  · have l1 := hl s.a (by simp)
    have l2 := hl s.b (by simp)
    have l3 := hl r.a (by simp)
    have l4 := hl r.b (by simp)
    intro q hq
    simp only [List.mem_cons, List.not_mem_nil, or_false] at hq
    rcases hq with rfl | rfl | rfl | rfl <;> simp only [Seg.flipY] <;> linarith
  · simp only [Seg.flipY]; linarith
  · simp only [Seg.flipY]; linarith

theorem collinear_flipX {s r : Seg} (h : CollinearOverlap s r) : CollinearOverlap s.flipX r.flipX := by
  obtain ⟨⟨a, b, c, hab, hl⟩, p, ⟨t, t0, t1, e1, e2⟩, ⟨u, u0, u1, f1, f2⟩⟩ := h
  refine ⟨⟨-a, b, c, by simpa using hab, ?_⟩, ⟨-p.x, p.y⟩, ⟨t, t0, t1, ?_, e2⟩, ⟨u, u0, u1, ?_, f2⟩⟩
  · have l1 := hl s.a (by simp)
    have l2 := hl s.b (by simp)
    have l3 := hl r.a (by simp)
    have l4 := hl r.b (by simp)
    intro q hq
    simp only [List.mem_cons, List.not_mem_nil, or_false] at hq
    rcases hq with rfl | rfl | rfl | rfl <;> simp only [Seg.flipX] <;> linarith
  · simp only [Seg.flipX]; linarith
  · simp only [Seg.flipX]; linarith

theorem flipY_flipY (s : Seg) : s.flipY.flipY = s := by
  cases s with | mk a b => cases a; cases b; simp [Seg.flipY]

theorem flipX_flipX (s : Seg) : s.flipX.flipX = s := by
  cases s with | mk a b => cases a; cases b; simp [Seg.flipX]

/-- The test in full. -/
theorem iscollinear_iff (s r : Seg) : iscollinear s r = true ↔
    (s.b.x - s.a.x) * (r.b.y - r.a.y) - (s.b.y - s.a.y) * (r.b.x - r.a.x) = 0 ∧
    (s.b.x - s.a.x) * (r.b.y - s.a.y) - (s.b.y - s.a.y) * (r.b.x - s.a.x) = 0 ∧
    ((s.b.x - s.a.x ≠ 0 ∧ overlaps s.a.x s.b.x r.a.x r.b.x = true) ∨ overlaps s.a.y s.b.y r.a.y r.b.y = true) := by
  unfold iscollinear cross2
  dsimp only
  split_ifs <;> simp_all

/-- Segments with a common point overlap in each coordinate. -/
theorem overlap_of_common {s r : Seg} (h : ∃ p, s.On p ∧ r.On p) :
    (s.a.x ≤ s.b.x → r.a.x ≤ r.b.x → overlaps s.a.x s.b.x r.a.x r.b.x = true) ∧
    (s.a.y ≤ s.b.y → r.a.y ≤ r.b.y → overlaps s.a.y s.b.y r.a.y r.b.y = true) := by
  obtain ⟨p, ⟨t, t0, t1, e1, e2⟩, ⟨u, u0, u1, f1, f2⟩⟩ := h
  constructor
  · intro hs hr
    rw [overlaps_iff hs hr]
    constructor <;> nlinarith
  · intro hs hr
    rw [overlaps_iff hs hr]
    constructor <;> nlinarith

/-- **C37 (partial).** For two segments drawn to the right and downwards the test is exact. -/
theorem C37_southeast_exact_partial (s r : Seg) (hsx : s.a.x < s.b.x) (hrx : r.a.x ≤ r.b.x) (hsy : s.b.y < s.a.y) (hry : r.b.y ≤ r.a.y) :
    iscollinear s r = true ↔ CollinearOverlap s r := by
  have key := C37_ascending_exact_partial s.flipY r.flipY hsx hrx (by simpa [Seg.flipY] using hsy) (by simpa [Seg.flipY] using hry)
  have d0 : s.b.x - s.a.x ≠ 0 := by intro h; linarith
  constructor
  · intro h
    obtain ⟨h1, h2, h3⟩ := (iscollinear_iff s r).1 h
    have hx : overlaps s.a.x s.b.x r.a.x r.b.x = true := by
      rcases h3 with h3 | h3
      · exact h3.2
      · have cx : ∀ q, (s.b.y - s.a.y) * q = 0 → q = 0 := fun q hq => (mul_eq_zero.1 hq).resolve_left (by intro h; linarith)
        rw [overlaps_iff hsx.le hrx]
        simp only [overlaps, decide_eq_true_eq] at h3
        rcases h3 with ⟨k, l⟩ | ⟨k, l⟩ | ⟨k, l⟩ | ⟨k, l⟩
        · linarith
        · linarith
        · have e1 : r.b.y = s.a.y := by linarith
          have e2 : r.a.y = s.a.y := by linarith
          rw [e1, e2] at h1
          rw [e1] at h2
          have := cx (r.b.x - s.a.x) (by linarith)
          have := cx (r.b.x - r.a.x) (by linarith)
          constructor <;> linarith
        · have e1 : r.b.y = s.b.y := by linarith
          have e2 : r.a.y = s.b.y := by linarith
          rw [e1, e2] at h1
          rw [e1] at h2
          have := cx (r.b.x - s.b.x) (by linarith)
          have := cx (r.b.x - r.a.x) (by linarith)
          constructor <;> linarith
    have : CollinearOverlap s.flipY r.flipY := key.1 ((iscollinear_iff _ _).2 ⟨by simp only [Seg.flipY]; linarith, by simp only [Seg.flipY]; linarith,
      Or.inl ⟨d0, hx⟩⟩)
    have := collinear_flipY this
    rwa [flipY_flipY, flipY_flipY] at this
  · intro h
    obtain ⟨h1, h2, -⟩ := (iscollinear_iff _ _).1 (key.2 (collinear_flipY h))
    simp only [Seg.flipY] at h1 h2
    exact (iscollinear_iff _ _).2 ⟨by linarith, by linarith, Or.inl ⟨d0, (overlap_of_common h.2).1 hsx.le hrx⟩⟩

example : iscollinear ⟨⟨0, 4⟩, ⟨2, 2⟩⟩ ⟨⟨1, 3⟩, ⟨3, 1⟩⟩ = true ∧
    iscollinear ⟨⟨0, 4⟩, ⟨1, 3⟩⟩ ⟨⟨2, 2⟩, ⟨3, 1⟩⟩ = false := by decide +kernel

/-- **C37 (partial).** For two segments drawn to the left and upwards the test is exact. -/
theorem C37_northwest_exact_partial (s r : Seg) (hsx : s.b.x < s.a.x) (hrx : r.b.x ≤ r.a.x) (hsy : s.a.y < s.b.y) (hry : r.a.y ≤ r.b.y) :
    iscollinear s r = true ↔ CollinearOverlap s r := by
  have key := C37_ascending_exact_partial s.flipX r.flipX (by simpa [Seg.flipX] using hsx) (by simpa [Seg.flipX] using hrx) hsy hry
  have d0 : s.b.x - s.a.x ≠ 0 := by intro h; linarith
  constructor
  · intro h
    obtain ⟨h1, h2, h3⟩ := (iscollinear_iff s r).1 h
    have hy : overlaps s.a.y s.b.y r.a.y r.b.y = true := by
      rcases h3 with ⟨-, h3⟩ | h3
      · have cx : ∀ q, (s.b.x - s.a.x) * q = 0 → q = 0 := fun q hq => (mul_eq_zero.1 hq).resolve_left d0
        rw [overlaps_iff hsy.le hry]
        simp only [overlaps, decide_eq_true_eq] at h3
        rcases h3 with ⟨k, l⟩ | ⟨k, l⟩ | ⟨k, l⟩ | ⟨k, l⟩
        · linarith
        · linarith
        · have e1 : r.b.x = s.a.x := by linarith
          have e2 : r.a.x = s.a.x := by linarith
          rw [e1, e2] at h1
          rw [e1] at h2
          have := cx (r.b.y - s.a.y) (by linarith)
          have := cx (r.b.y - r.a.y) (by linarith)
          constructor <;> linarith
        · have e1 : r.b.x = s.b.x := by linarith
          have e2 : r.a.x = s.b.x := by linarith
          rw [e1, e2] at h1
          rw [e1] at h2
          have := cx (r.b.y - s.b.y) (by linarith)
          have := cx (r.b.y - r.a.y) (by linarith)
          constructor <;> linarith
      · exact h3
    have : CollinearOverlap s.flipX r.flipX := key.1 ((iscollinear_iff _ _).2 ⟨by simp only [Seg.flipX]; linarith, by simp only [Seg.flipX]; linarith,
      Or.inr hy⟩)
    have := collinear_flipX this
    rwa [flipX_flipX, flipX_flipX] at this
  · intro h
    obtain ⟨h1, h2, -⟩ := (iscollinear_iff _ _).1 (key.2 (collinear_flipX h))
    simp only [Seg.flipX] at h1 h2
    exact (iscollinear_iff _ _).2 ⟨by linarith, by linarith, Or.inr ((overlap_of_common h.2).2 hsy.le hry)⟩

example : iscollinear ⟨⟨4, 0⟩, ⟨2, 2⟩⟩ ⟨⟨3, 1⟩, ⟨1, 3⟩⟩ = true ∧
    iscollinear ⟨⟨4, 0⟩, ⟨3, 1⟩⟩ ⟨⟨2, 2⟩, ⟨1, 3⟩⟩ = false := by decide +kernel

/-- **C37 (violated) for all segments drawn to the left and downwards**: the test answers False, whether they overlap or not. -/
theorem C37_violated_southwest (s r : Seg) (hsx : s.b.x < s.a.x) (hrx : r.b.x < r.a.x) (hsy : s.b.y < s.a.y) (hry : r.b.y < r.a.y) :
    iscollinear s r = false := by
  have no : ∀ a0 a1 b0 b1 : ℚ, a1 < a0 → b1 < b0 → overlaps a0 a1 b0 b1 = false := by
    intro a0 a1 b0 b1 ha hb
    simp only [overlaps, decide_eq_false_iff_not]
    rintro (⟨k, l⟩ | ⟨k, l⟩ | ⟨k, l⟩ | ⟨k, l⟩) <;> linarith
  by_contra h
  obtain ⟨-, -, h3 | h3⟩ := (iscollinear_iff s r).1 (by simpa using h)
  · rw [no _ _ _ _ hsx hrx] at h3
    exact absurd h3.2 (by decide)
  · rw [no _ _ _ _ hsy hry] at h3
    exact absurd h3 (by decide)

/-- Two such segments that overlap. -/
example : iscollinear ⟨⟨3, 3⟩, ⟨1, 1⟩⟩ ⟨⟨2, 2⟩, ⟨0, 0⟩⟩ = false ∧ CollinearOverlap ⟨⟨3, 3⟩, ⟨1, 1⟩⟩ ⟨⟨2, 2⟩, ⟨0, 0⟩⟩ := by
  refine ⟨C37_violated_southwest _ _ (by norm_num) (by norm_num) (by norm_num) (by norm_num), ⟨1, -1, 0, Or.inl one_ne_zero, ?_⟩, ⟨2, 2⟩,
    ⟨1 / 2, by norm_num⟩, ⟨0, by norm_num⟩⟩
  intro p hp
  simp only [List.mem_cons, List.not_mem_nil, or_false] at hp
  rcases hp with rfl | rfl | rfl | rfl <;> norm_num

/-- **C37 (violated) for all horizontal segments on one line**: the test answers True, whether they overlap or not. -/
theorem C37_violated_same_height (s r : Seg) (h1 : s.b.y = s.a.y) (h2 : r.a.y = s.a.y) (h3 : r.b.y = s.a.y) : iscollinear s r = true := by
  rw [iscollinear_iff, h1, h2, h3]
  refine ⟨by ring, by ring, Or.inr ?_⟩
  simp [overlaps]

example : iscollinear ⟨⟨0, 5⟩, ⟨1, 5⟩⟩ ⟨⟨100, 5⟩, ⟨101, 5⟩⟩ = true := C37_violated_same_height _ _ rfl rfl rfl

/-- **C37 (violated) for segments drawn in opposite directions**, the first to the right and upwards: if the first lies inside the
second, the test answers False. -/
theorem C37_violated_opposite (s r : Seg) (hsx : s.a.x < s.b.x) (hsy : s.a.y < s.b.y) (h1 : r.b.x < s.a.x) (h2 : s.b.x < r.a.x)
    (h3 : r.b.y < s.a.y) (h4 : s.b.y < r.a.y) : iscollinear s r = false := by
  have no : ∀ a0 a1 b0 b1 : ℚ, a0 < a1 → b1 < a0 → a1 < b0 → overlaps a0 a1 b0 b1 = false := by
    intro a0 a1 b0 b1 ha hb hc
    simp only [overlaps, decide_eq_false_iff_not]
    rintro (⟨k, l⟩ | ⟨k, l⟩ | ⟨k, l⟩ | ⟨k, l⟩) <;> linarith
  by_contra h
  obtain ⟨-, -, h5 | h5⟩ := (iscollinear_iff s r).1 (by simpa using h)
  · rw [no _ _ _ _ hsx h1 h2] at h5
    exact absurd h5.2 (by decide)
  · rw [no _ _ _ _ hsy h3 h4] at h5
    exact absurd h5 (by decide)

/-- The diagonal of a square and a part of it. -/
example : iscollinear ⟨⟨1, 1⟩, ⟨2, 2⟩⟩ ⟨⟨4, 4⟩, ⟨0, 0⟩⟩ = false ∧ iscollinear ⟨⟨1, 1⟩, ⟨2, 2⟩⟩ ⟨⟨0, 0⟩, ⟨4, 4⟩⟩ = true :=
  ⟨C37_violated_opposite _ _ (by norm_num) (by norm_num) (by norm_num) (by norm_num) (by norm_num) (by norm_num), by decide +kernel⟩

end Karta.Vec
